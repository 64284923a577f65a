import Verif.Model.Env
import Verif.Spec.Env
/-!
# Lemmas on environment variables and plusargs
-/
namespace Verif.Env
open Verif Verif.EnvSpec

theorem dropWhile_all {p : Nat → Bool} {a t : Text} (ha : ∀ c ∈ a, p c = true) (ht : ∀ c, t.head? = some c → p c = false) :
    (a ++ t).dropWhile p = t := by
  induction a with
  | nil =>
    cases t with
    | nil => rfl
    | cons c t => simp [List.dropWhile, ht c rfl]
  | cons c a ih =>
    simp only [List.cons_append, List.dropWhile, ha c List.mem_cons_self]
    exact ih fun d hd => ha d (List.mem_cons_of_mem _ hd)

theorem dropWhile_split (p : Nat → Bool) (v : Text) :
    ∃ a, v = a ++ v.dropWhile p ∧ (∀ c ∈ a, p c = true) ∧ ∀ c, (v.dropWhile p).head? = some c → p c = false := by
  induction v with
  | nil => exact ⟨[], rfl, by simp, by simp⟩
  | cons c v ih =>
    obtain ⟨a, h1, h2, h3⟩ := ih
    cases h : p c with
    | true =>
      refine ⟨c :: a, ?_, ?_, ?_⟩
      · simp only [List.dropWhile, h, List.cons_append]; rw [← h1]
      · intro d hd
        rcases List.mem_cons.1 hd with rfl | hd
        · exact h
        · exact h2 d hd
      · simpa only [List.dropWhile, h] using h3
    | false =>
      refine ⟨[], ?_, by simp, ?_⟩
      · simp [List.dropWhile, h]
      · simp [List.dropWhile, h]

theorem strip_eq {v t : Text} (h : Trimmed v t) : stripText v = t := by
  obtain ⟨a, b, rfl, ha, hb, h1, h2⟩ := h
  unfold stripText
  by_cases ht : t = []
  · subst ht
    have h0 : (a ++ [] ++ b).dropWhile isBlank = [] := by
      have := dropWhile_all (p := isBlank) (a := a ++ b) (t := [])
        (fun c hc => (List.mem_append.1 hc).elim (ha c) (hb c)) (by simp)
      simpa using this
    rw [h0]; rfl
  · have h0 : (a ++ t ++ b).dropWhile isBlank = t ++ b := by
      rw [List.append_assoc]
      refine dropWhile_all ha ?_
      intro c hc
      cases t with
      | nil => exact absurd rfl ht
      | cons d t => exact h1 c (by simpa using hc)
    rw [h0, List.reverse_append, dropWhile_all, List.reverse_reverse]
    · intro c hc; exact hb c (List.mem_reverse.1 hc)
    · intro c hc; exact h2 c (by simpa using hc)

theorem strip_trimmed (v : Text) : Trimmed v (stripText v) := by
  obtain ⟨a, h1, h2, h3⟩ := dropWhile_split isBlank v
  obtain ⟨b, k1, k2, k3⟩ := dropWhile_split isBlank (v.dropWhile isBlank).reverse
  have hk : v.dropWhile isBlank = stripText v ++ b.reverse := by
    have := congrArg List.reverse k1
    simpa [stripText] using this
  refine ⟨a, b.reverse, ?_, h2, ?_, ?_, ?_⟩
  · rw [List.append_assoc, ← hk]; exact h1
  · intro c hc; exact k2 c (List.mem_reverse.1 hc)
  · intro c hc
    refine h3 c ?_
    rw [hk]
    cases hs : stripText v with
    | nil => rw [hs] at hc; simp at hc
    | cons d r => rw [hs] at hc; simpa using hc
  · intro c hc
    refine k3 c ?_
    unfold stripText at hc
    simpa using hc

/-! ### Spellings -/

theorem lower_spells (U : Unicode) (hU : U.Ok) : ∀ (t w : Text), (∀ d ∈ w, d < 128 ∧ d ≠ 107 ∧ ¬ (65 ≤ d ∧ d ≤ 90)) →
    (lowerText U t = w ↔ Spells w t)
  | [], w, _ => by
    cases w <;> simp [lowerText, Spells]
  | c :: t, w, hw => by
    have hcons : lowerText U (c :: t) = lowerChar U c ++ lowerText U t := rfl
    rw [hcons]
    by_cases hc : c < 128
    · have hl : ∃ e, lowerChar U c = [e] ∧ (e = if 65 ≤ c ∧ c ≤ 90 then c + 32 else c) := by
        unfold lowerChar
        rw [if_pos hc]
        split <;> exact ⟨_, rfl, rfl⟩
      obtain ⟨e, he, hee⟩ := hl
      rw [he]
      cases w with
      | nil => simp [Spells]
      | cons d w =>
        have hd := hw d List.mem_cons_self
        have ih := lower_spells U hU t w fun x hx => hw x (List.mem_cons_of_mem _ hx)
        simp only [List.cons_append, List.nil_append, List.cons.injEq, Spells, ih, SameLetter]
        refine and_congr ?_ Iff.rfl
        rw [hee]
        split <;> omega
    · constructor
      · intro h
        have hl : lowerChar U c = U.lower c := by unfold lowerChar; rw [if_neg hc]
        rw [hl] at h
        rcases hU c (by omega) with h1 | ⟨d, h1, h2⟩
        · rw [h1] at h
          have := hw 107 (by rw [← h]; simp)
          exact absurd rfl this.2.1
        · have := hw d (by rw [← h]; exact List.mem_append_left _ h1)
          omega
      · intro h
        cases w with
        | nil => exact absurd h (by simp [Spells])
        | cons d w =>
          have hd := hw d List.mem_cons_self
          have h1 := h.1
          unfold SameLetter at h1
          omega

/-- The words of the code are the documented ones. -/
theorem words_true : trueWords = (words true).map fun s => ofStr s.toList := rfl

theorem words_false : falseWords = (words false).map fun s => ofStr s.toList := rfl

theorem word_plain (b : Bool) : ∀ s ∈ words b, ∀ d ∈ ofStr s.toList, d < 128 ∧ d ≠ 107 ∧ ¬ (65 ≤ d ∧ d ≤ 90) := by
  cases b <;> decide

theorem mem_words (U : Unicode) (hU : U.Ok) (b : Bool) (t : Text) :
    (lowerText U t ∈ (words b).map fun s => ofStr s.toList) ↔ Means b t := by
  unfold Means
  rw [List.mem_map]
  constructor
  · rintro ⟨s, hs, h⟩
    exact ⟨s, hs, (lower_spells U hU t _ (word_plain b s hs)).1 h.symm⟩
  · rintro ⟨s, hs, h⟩
    exact ⟨s, hs, ((lower_spells U hU t _ (word_plain b s hs)).2 h).symm⟩

theorem words_disjoint (U : Unicode) (t : Text) (h1 : lowerText U t ∈ trueWords) : lowerText U t ∉ falseWords := by
  have : ∀ w ∈ trueWords, w ∉ falseWords := by decide
  exact this _ h1

theorem asBool_iff (U : Unicode) (hU : U.Ok) (t : Text) (b : Bool) : asBool U t = .ok b ↔ Means b t := by
  unfold asBool
  have hT := mem_words U hU true t
  have hF := mem_words U hU false t
  rw [← words_true] at hT
  rw [← words_false] at hF
  by_cases h1 : lowerText U t ∈ trueWords
  · rw [if_pos h1]
    have h2 := words_disjoint U t h1
    cases b
    · refine iff_of_false (by simp) (fun h => h2 (hF.2 h))
    · exact iff_of_true rfl (hT.1 h1)
  · rw [if_neg h1]
    by_cases h2 : lowerText U t ∈ falseWords
    · rw [if_pos h2]
      cases b
      · exact iff_of_true rfl (hF.1 h2)
      · exact iff_of_false (by simp) (fun h => h1 (hT.2 h))
    · rw [if_neg h2]
      refine iff_of_false (by simp) ?_
      cases b
      · exact fun h => h2 (hF.2 h)
      · exact fun h => h1 (hT.2 h)

theorem asBool_error (U : Unicode) (t : Text) (e : PyErr) (h : asBool U t = .error e) : e = .valueError := by
  unfold asBool at h
  split at h
  · simp at h
  · split at h <;> simp at h; exact h.symm

theorem means_nonempty {b : Bool} {t : Text} (h : Means b t) : t ≠ [] := by
  rintro rfl
  obtain ⟨s, hs, h⟩ := h
  have : ∀ s ∈ words b, ofStr s.toList ≠ [] := by cases b <;> decide
  have h0 := this s hs
  generalize ofStr s.toList = w at h h0
  cases w with
  | nil => exact h0 rfl
  | cons c w => exact h

/-! ### Splitting -/

theorem splitGo_cons (sep c : Nat) (cs : Text) :
    splitGo [sep] 0 (c :: cs) = if c = sep then [] :: splitGo [sep] 0 cs else
      match splitGo [sep] 0 cs with
      | [] => [[c]]
      | q :: qs => (c :: q) :: qs := by
  rw [splitGo]
  by_cases h : c = sep
  · subst h
    simp
  · have : ([sep] : Text).isPrefixOf (c :: cs) = false := by
      simp [List.isPrefixOf]; exact fun e => h e.symm
    rw [this, if_neg h]; rfl

theorem splitGo_ne (sep : Nat) (t : Text) : splitGo [sep] 0 t ≠ [] := by
  cases t with
  | nil => simp [splitGo]
  | cons c cs =>
    rw [splitGo_cons]
    split
    · simp
    · split <;> simp

theorem splitGo_free {sep : Nat} {f : Text} (h : sep ∉ f) : splitGo [sep] 0 f = [f] := by
  induction f with
  | nil => rfl
  | cons c f ih =>
    rw [splitGo_cons, if_neg (fun e => h (by simp [e])), ih (fun e => h (List.mem_cons_of_mem _ e))]

theorem splitGo_field {sep : Nat} {f : Text} (h : sep ∉ f) (t : Text) :
    splitGo [sep] 0 (f ++ sep :: t) = f :: splitGo [sep] 0 t := by
  induction f with
  | nil => simp [splitGo_cons]
  | cons c f ih =>
    rw [List.cons_append, splitGo_cons, if_neg (fun e => h (by simp [e])), ih (fun e => h (List.mem_cons_of_mem _ e))]

theorem splitGo_join {sep : Nat} : ∀ {fs : List Text}, fs ≠ [] → (∀ f ∈ fs, sep ∉ f) →
    splitGo [sep] 0 (fs.intersperse [sep]).flatten = fs
  | [], h, _ => absurd rfl h
  | [f], _, h => by simpa using splitGo_free (h f List.mem_cons_self)
  | f :: g :: fs, _, h => by
    have ih := splitGo_join (fs := g :: fs) (by simp) fun x hx => h x (List.mem_cons_of_mem _ hx)
    have : ((f :: g :: fs).intersperse [sep]).flatten = f ++ sep :: ((g :: fs).intersperse [sep]).flatten := by
      simp [List.intersperse]
    rw [this, splitGo_field (h f List.mem_cons_self), ih]

theorem join_splitGo (sep : Nat) (t : Text) :
    t = ((splitGo [sep] 0 t).intersperse [sep]).flatten ∧ ∀ f ∈ splitGo [sep] 0 t, sep ∉ f := by
  induction t with
  | nil => simp [splitGo]
  | cons c cs ih =>
    rw [splitGo_cons]
    obtain ⟨ih1, ih2⟩ := ih
    have hne := splitGo_ne sep cs
    generalize splitGo [sep] 0 cs = l at ih1 ih2 hne
    cases l with
    | nil => exact absurd rfl hne
    | cons q qs =>
      split
      · next h =>
        refine ⟨?_, ?_⟩
        · rw [show (([] :: q :: qs).intersperse [sep]).flatten = sep :: ((q :: qs).intersperse [sep]).flatten by
            simp [List.intersperse], ← ih1, h]
        · intro f hf
          rcases List.mem_cons.1 hf with rfl | hf
          · simp
          · exact ih2 f hf
      · next h =>
        refine ⟨?_, ?_⟩
        · conv => lhs; rw [ih1]
          cases qs <;> simp [List.intersperse]
        · intro f hf
          rcases List.mem_cons.1 hf with rfl | hf
          · intro hm
            rcases List.mem_cons.1 hm with e | hm
            · exact h e.symm
            · exact ih2 q List.mem_cons_self hm
          · exact ih2 f (List.mem_cons_of_mem _ hf)

theorem strip_blank_cons {c : Nat} (h : isBlank c = true) (t : Text) : stripText (c :: t) = stripText t := by
  unfold stripText
  rw [List.dropWhile_cons_of_pos h]

theorem dropWhile_snoc {p : Nat → Bool} (t : Text) {c : Nat} (h : p c = true) :
    (t ++ [c]).dropWhile p = if t.dropWhile p = [] then [] else t.dropWhile p ++ [c] := by
  induction t with
  | nil => simp [List.dropWhile, h]
  | cons d t ih =>
    rw [List.cons_append]
    cases hd : p d with
    | true => simp only [List.dropWhile, hd]; exact ih
    | false => simp [List.dropWhile, hd]

theorem strip_blank_snoc {c : Nat} (h : isBlank c = true) (t : Text) : stripText (t ++ [c]) = stripText t := by
  unfold stripText
  rw [dropWhile_snoc t h]
  split
  · next e => rw [e]
  · rw [List.reverse_append]
    show (List.dropWhile isBlank (c :: (t.dropWhile isBlank).reverse)).reverse = _
    rw [List.dropWhile_cons_of_pos h]

/-- Fields after stripping do not change when blanks around the whole text are removed. -/
theorem fields_blank_cons {sep c : Nat} (h : isBlank c = true) (hs : isBlank sep = false) (t : Text) :
    (splitGo [sep] 0 (c :: t)).map stripText = (splitGo [sep] 0 t).map stripText := by
  rw [splitGo_cons, if_neg (by rintro rfl; rw [h] at hs; exact absurd hs (by simp))]
  have hne := splitGo_ne sep t
  cases hl : splitGo [sep] 0 t with
  | nil => exact absurd hl hne
  | cons q qs => simp [strip_blank_cons h]

theorem first_of_mem {sep : Nat} {t : Text} (h : sep ∈ t) : ∃ a b, t = a ++ sep :: b ∧ sep ∉ a := by
  induction t with
  | nil => simp at h
  | cons x t ih =>
    by_cases hx : x = sep
    · exact ⟨[], t, by simp [hx], by simp⟩
    · obtain ⟨a, b, h1, h2⟩ := ih ((List.mem_cons.1 h).resolve_left fun e => hx e.symm)
      exact ⟨x :: a, b, by simp [h1], fun hm => (List.mem_cons.1 hm).elim (fun e => hx e.symm) h2⟩

theorem fields_blank_snoc {sep c : Nat} (h : isBlank c = true) (hs : isBlank sep = false) (t : Text) :
    (splitGo [sep] 0 (t ++ [c])).map stripText = (splitGo [sep] 0 t).map stripText := by
  have hcs : c ≠ sep := by rintro rfl; rw [h] at hs; exact absurd hs (by simp)
  induction t with
  | nil =>
    rw [List.nil_append, splitGo_cons, if_neg hcs]
    simp [splitGo, strip_blank_cons h]
  | cons d t ih =>
    rw [List.cons_append, splitGo_cons, splitGo_cons]
    have hne1 := splitGo_ne sep t
    have hne2 := splitGo_ne sep (t ++ [c])
    split
    · simp [ih]
    · -- the first fields may differ in trailing blanks only
      by_cases hsep : sep ∈ t
      · obtain ⟨a, b, rfl, ha⟩ := first_of_mem hsep
        rw [List.append_assoc, List.cons_append, splitGo_field ha, splitGo_field ha] at ih ⊢
        simp only [List.map_cons, List.cons.injEq, true_and] at ih ⊢
        exact ih
      · have h2 : sep ∉ t ++ [c] := by simp [hsep, hcs.symm]
        rw [splitGo_free hsep, splitGo_free h2]
        simp only [List.map_cons, List.map_nil, List.cons.injEq, and_true]
        rw [← List.cons_append, strip_blank_snoc h]

theorem fields_trimmed {sep : Nat} (hs : isBlank sep = false) {v t : Text} (h : Trimmed v t) :
    (splitGo [sep] 0 v).map stripText = (splitGo [sep] 0 t).map stripText := by
  obtain ⟨a, b, rfl, ha, hb, -, -⟩ := h
  have hA : ∀ (a w : Text), (∀ c ∈ a, isBlank c = true) →
      (splitGo [sep] 0 (a ++ w)).map stripText = (splitGo [sep] 0 w).map stripText := by
    intro a
    induction a with
    | nil => intro w _; rfl
    | cons c a ih =>
      intro w hc
      rw [List.cons_append, fields_blank_cons (hc c List.mem_cons_self) hs]
      exact ih w fun d hd => hc d (List.mem_cons_of_mem _ hd)
  have hB : ∀ (b w : Text), (∀ c ∈ b, isBlank c = true) →
      (splitGo [sep] 0 (w ++ b)).map stripText = (splitGo [sep] 0 w).map stripText := by
    intro b
    induction b with
    | nil => intro w _; rw [List.append_nil]
    | cons c b ih =>
      intro w hc
      rw [show w ++ c :: b = (w ++ [c]) ++ b by simp]
      rw [ih _ fun d hd => hc d (List.mem_cons_of_mem _ hd), fields_blank_snoc (hc c List.mem_cons_self) hs]
  rw [hB b _ hb, hA a _ ha]

/-! ### Integers -/

theorem digitOf_iff (U : Unicode) {c : Nat} (hc : c < 128) (d : Nat) : digitOf U c = some d ↔ c = 48 + d ∧ d < 10 := by
  unfold digitOf
  rw [if_pos hc]
  split
  · simp only [Option.some.injEq]; omega
  · simp only [reduceCtorEq, false_iff]; omega

/-- Groups of digits, the first of which may be empty if `open_`. -/
def Groups (open_ : Bool) (gs : List (List Nat)) (t : Text) : Prop :=
  ∃ g r, gs = g :: r ∧ (open_ = false → g ≠ []) ∧ (∀ d ∈ g, d < 10) ∧ (∀ x ∈ r, x ≠ [] ∧ ∀ d ∈ x, d < 10) ∧
    t = ((gs.map fun g => g.map (48 + ·)).intersperse [95]).flatten

theorem groups_cons_digit {b : Bool} {d : Nat} (hd : d < 10) {gs : List (List Nat)} {t : Text} (h : Groups true gs t) :
    ∃ gs', Groups b gs' ((48 + d) :: t) ∧ gs'.flatten = d :: gs.flatten := by
  obtain ⟨g, r, rfl, -, h2, h3, rfl⟩ := h
  refine ⟨(d :: g) :: r, ⟨d :: g, r, rfl, by simp, ?_, h3, ?_⟩, rfl⟩
  · intro x hx
    rcases List.mem_cons.1 hx with rfl | hx
    · exact hd
    · exact h2 x hx
  · cases r <;> simp [List.intersperse]

theorem groups_inv {b : Bool} {c : Nat} {gs : List (List Nat)} {t : Text} (h : Groups b gs (c :: t)) :
    (∃ d gs', d < 10 ∧ c = 48 + d ∧ Groups true gs' t ∧ gs.flatten = d :: gs'.flatten) ∨
      (b = true ∧ c = 95 ∧ ∃ gs', Groups false gs' t ∧ gs.flatten = gs'.flatten) := by
  obtain ⟨g, r, rfl, h1, h2, h3, h4⟩ := h
  cases g with
  | cons d g =>
    left
    have hd := h2 d List.mem_cons_self
    refine ⟨d, g :: r, hd, ?_, ⟨g, r, rfl, by simp, fun x hx => h2 x (List.mem_cons_of_mem _ hx), h3, ?_⟩, rfl⟩
    · cases r <;> simp [List.intersperse] at h4 <;> exact h4.1
    · cases r <;> simp [List.intersperse] at h4 ⊢ <;> exact h4.2
  | nil =>
    right
    cases b with
    | false => exact absurd rfl (h1 rfl)
    | true =>
      cases r with
      | nil => simp at h4
      | cons g' r =>
        have hg := h3 g' List.mem_cons_self
        simp only [List.map_cons, List.map_nil, List.intersperse, List.flatten_cons, List.nil_append,
          List.cons_append, List.cons.injEq] at h4
        exact ⟨rfl, h4.1, g' :: r, ⟨g', r, rfl, fun _ => hg.1, hg.2, fun x hx => h3 x (List.mem_cons_of_mem _ hx), h4.2⟩, rfl⟩

theorem groups_nil {b : Bool} {gs : List (List Nat)} (h : Groups b gs []) : b = true ∧ gs = [[]] := by
  obtain ⟨g, r, rfl, h1, h2, h3, h4⟩ := h
  cases r with
  | nil =>
    have : g = [] := by simpa using h4
    subst this
    cases b with
    | true => exact ⟨rfl, rfl⟩
    | false => exact absurd rfl (h1 rfl)
  | cons g' r => simp [List.intersperse] at h4

theorem intDigits_iff (U : Unicode) : ∀ (t : Text) (need : Bool) (acc n : Nat), (∀ c ∈ t, c < 128) →
    (intDigits U need acc t = some n ↔
      ∃ gs, Groups (!need) gs t ∧ n = gs.flatten.foldl (fun n d => 10 * n + d) acc)
  | [], need, acc, n, _ => by
    cases need with
    | true =>
      simp only [intDigits, if_true, reduceCtorEq, false_iff]
      rintro ⟨gs, h, -⟩
      exact absurd (groups_nil h).1 (by simp)
    | false =>
      simp only [intDigits, Bool.false_eq_true, if_false, Option.some.injEq]
      constructor
      · rintro rfl
        exact ⟨[[]], ⟨[], [], rfl, by simp, by simp, by simp, rfl⟩, rfl⟩
      · rintro ⟨gs, h, h2⟩
        rw [(groups_nil h).2] at h2
        exact h2.symm
  | c :: t, need, acc, n, hc => by
    have hc0 := hc c List.mem_cons_self
    have hct : ∀ x ∈ t, x < 128 := fun x hx => hc x (List.mem_cons_of_mem _ hx)
    rw [intDigits]
    cases hd : digitOf U c with
    | some d =>
      obtain ⟨h1, h2⟩ := (digitOf_iff U hc0 d).1 hd
      subst h1
      show intDigits U false (10 * acc + d) t = some n ↔ _
      rw [intDigits_iff U t false _ n hct]
      constructor
      · rintro ⟨gs, h, rfl⟩
        obtain ⟨gs', k1, k2⟩ := groups_cons_digit (b := !need) h2 h
        exact ⟨gs', k1, by rw [k2]; rfl⟩
      · rintro ⟨gs, h, rfl⟩
        rcases groups_inv h with ⟨d', gs', -, k2, k3, k4⟩ | ⟨-, k, -⟩
        · have : d' = d := by omega
          subst this
          exact ⟨gs', k3, by rw [k4]; rfl⟩
        · omega
    | none =>
      have hnd : ∀ d, d < 10 → c ≠ 48 + d := fun d h e => by
        rw [(digitOf_iff U hc0 d).2 ⟨e, h⟩] at hd; simp at hd
      show (if c = 95 ∧ need = false then intDigits U true acc t else none) = some n ↔ _
      split
      · next h =>
        obtain ⟨rfl, rfl⟩ := h
        rw [intDigits_iff U t true _ n hct]
        constructor
        · rintro ⟨gs, h, rfl⟩
          obtain ⟨g, r, rfl, h1, h2, h3, rfl⟩ := h
          refine ⟨[] :: g :: r, ⟨[], g :: r, rfl, by simp, by simp, ?_, rfl⟩, rfl⟩
          intro x hx
          rcases List.mem_cons.1 hx with rfl | hx
          · exact ⟨h1 rfl, h2⟩
          · exact h3 x hx
        · rintro ⟨gs, h, rfl⟩
          rcases groups_inv h with ⟨d', gs', k1, k2, -⟩ | ⟨-, -, gs', k, k2⟩
          · exact absurd k2 (hnd d' k1)
          · exact ⟨gs', k, by rw [k2]⟩
      · next hn =>
        simp only [reduceCtorEq, false_iff]
        rintro ⟨gs, h, -⟩
        rcases groups_inv h with ⟨d', gs', k1, k2, -⟩ | ⟨k1, k2, -⟩
        · exact absurd k2 (hnd d' k1)
        · exact hn ⟨k2, by simpa using k1⟩

theorem writes_iff (U : Unicode) (t : Text) (n : Nat) (hc : ∀ c ∈ t, c < 128) :
    intDigits U true 0 t = some n ↔ Writes t n := by
  rw [intDigits_iff U t true 0 n hc]
  unfold Writes Groups positional
  constructor
  · rintro ⟨gs, ⟨g, r, rfl, h1, h2, h3, h4⟩, h5⟩
    refine ⟨g :: r, by simp, ?_, h4, h5⟩
    intro x hx
    rcases List.mem_cons.1 hx with rfl | hx
    · exact ⟨h1 rfl, h2⟩
    · exact h3 x hx
  · rintro ⟨gs, h1, h2, h4, h5⟩
    obtain ⟨g, r, rfl⟩ := List.exists_cons_of_ne_nil h1
    exact ⟨g :: r, ⟨g, r, rfl, fun _ => (h2 g List.mem_cons_self).1, (h2 g List.mem_cons_self).2,
      fun x hx => h2 x (List.mem_cons_of_mem _ hx), h4⟩, h5⟩

theorem writes_head {c : Nat} {t : Text} {n : Nat} (h : Writes (c :: t) n) : 48 ≤ c ∧ c < 58 := by
  obtain ⟨gs, h1, h2, h3, -⟩ := h
  obtain ⟨g, r, rfl⟩ := List.exists_cons_of_ne_nil h1
  obtain ⟨k1, k2⟩ := h2 g List.mem_cons_self
  obtain ⟨d, g', rfl⟩ := List.exists_cons_of_ne_nil k1
  have := k2 d List.mem_cons_self
  have hc : c = 48 + d := by
    cases r <;> simp [List.intersperse] at h3 <;> exact h3.1
  omega

theorem writes_ne {t : Text} {n : Nat} (h : Writes t n) : t ≠ [] := by
  rintro rfl
  obtain ⟨gs, h1, h2, h3, -⟩ := h
  obtain ⟨g, r, rfl⟩ := List.exists_cons_of_ne_nil h1
  obtain ⟨k1, k2⟩ := h2 g List.mem_cons_self
  obtain ⟨d, g', rfl⟩ := List.exists_cons_of_ne_nil k1
  cases r <;> simp [List.intersperse] at h3

theorem trimmed_mem {v t : Text} (h : Trimmed v t) : ∀ c ∈ t, c ∈ v := by
  obtain ⟨a, b, rfl, -⟩ := h
  intro c hc
  simp [hc]

theorem intOf_iff (U : Unicode) {v t : Text} (ht : Trimmed v t) (hc : ∀ c ∈ v, c < 128) (i : Int) :
    intOf U v = .ok i ↔ WritesInt t i := by
  have htc : ∀ c ∈ t, c < 128 := fun c h => hc c (trimmed_mem ht c h)
  unfold intOf
  rw [strip_eq ht]
  cases t with
  | nil =>
    refine iff_of_false (by simp) ?_
    rintro ⟨n, ⟨h, -⟩ | ⟨r, h, -⟩ | ⟨r, h, -⟩⟩
    · exact writes_ne h rfl
    · simp at h
    · simp at h
  | cons c cs =>
    have hcs : ∀ x ∈ cs, x < 128 := fun x hx => htc x (List.mem_cons_of_mem _ hx)
    show (if c = 45 then _ else _) = _ ↔ _
    by_cases h45 : c = 45
    · subst h45
      rw [if_pos rfl]
      have hw : WritesInt (45 :: cs) i ↔ ∃ n, Writes cs n ∧ i = -(n : Int) := by
        unfold WritesInt
        constructor
        · rintro ⟨n, ⟨h, -⟩ | ⟨r, h, -⟩ | ⟨r, h, h2⟩⟩
          · have := writes_head h; omega
          · simp at h
          · obtain rfl := (List.cons.inj h).2
            exact ⟨n, h2⟩
        · rintro ⟨n, h⟩
          exact ⟨n, .inr (.inr ⟨cs, rfl, h⟩)⟩
      rw [hw]
      simp only [← writes_iff U cs _ hcs]
      cases intDigits U true 0 cs with
      | none => simp
      | some n => simp [eq_comm]
    · rw [if_neg h45]
      by_cases h43 : c = 43
      · subst h43
        rw [if_pos rfl]
        have hw : WritesInt (43 :: cs) i ↔ ∃ n : Nat, Writes cs n ∧ i = (n : Int) := by
          unfold WritesInt
          constructor
          · rintro ⟨n, ⟨h, -⟩ | ⟨r, h, h2⟩ | ⟨r, h, -⟩⟩
            · have := writes_head h; omega
            · obtain rfl := (List.cons.inj h).2
              exact ⟨n, h2⟩
            · simp at h
          · rintro ⟨n, h⟩
            exact ⟨n, .inr (.inl ⟨cs, rfl, h⟩)⟩
        rw [hw]
        simp only [← writes_iff U cs _ hcs]
        cases intDigits U true 0 cs with
        | none => simp
        | some n => simp [eq_comm]
      · rw [if_neg h43]
        have hw : WritesInt (c :: cs) i ↔ ∃ n : Nat, Writes (c :: cs) n ∧ i = (n : Int) := by
          unfold WritesInt
          constructor
          · rintro ⟨n, h | ⟨r, h, h2⟩ | ⟨r, h, -⟩⟩
            · exact ⟨n, h⟩
            · exact absurd (List.cons.inj h).1 h43
            · exact absurd (List.cons.inj h).1 h45
          · rintro ⟨n, h⟩
            exact ⟨n, .inl h⟩
        rw [hw]
        simp only [← writes_iff U (c :: cs) _ htc]
        cases intDigits U true 0 (c :: cs) with
        | none => simp
        | some n => simp [eq_comm]

theorem intOf_error (U : Unicode) (t : Text) (e : PyErr) (h : intOf U t = .error e) : e = .valueError := by
  unfold intOf at h
  split at h
  · simpa using h.symm
  · split at h
    · split at h <;> simp at h; exact h.symm
    · split at h <;> simp at h; exact h.symm

/-! ### Plus arguments -/

/-- The model's value for the specification's. -/
def valOf : Option Text → PlusVal
  | some v => .str v
  | none => .true_

theorem splitOnce_app {c : Nat} {a : Text} (h : c ∉ a) (b : Text) : splitOnce c (a ++ c :: b) = (a, b) := by
  unfold splitOnce
  induction a with
  | nil => simp
  | cons x a ih =>
    have hx : (x != c) = true := by simp; exact fun e => h (by simp [e])
    have ih := ih fun e => h (List.mem_cons_of_mem _ e)
    simp only [List.cons_append, List.takeWhile, List.dropWhile, hx, Prod.mk.injEq] at ih ⊢
    exact ⟨by rw [ih.1], ih.2⟩

theorem plus_inv {o n : Text} {v : Option Text} (h : Plus o n v) :
    61 ∉ n ∧ ((v = none ∧ o = 43 :: n) ∨ ∃ x, v = some x ∧ o = 43 :: (n ++ 61 :: x)) := by
  cases h with
  | flag _ hn => exact ⟨hn, .inl ⟨rfl, rfl⟩⟩
  | value _ x hn => exact ⟨hn, .inr ⟨x, rfl, rfl⟩⟩

theorem plus_unique {o n m : Text} {v w : Option Text} (h1 : Plus o n v) (h2 : Plus o m w) : n = m ∧ v = w := by
  obtain ⟨hn, ⟨rfl, rfl⟩ | ⟨x, rfl, rfl⟩⟩ := plus_inv h1
  · obtain ⟨hm, ⟨rfl, e⟩ | ⟨y, rfl, e⟩⟩ := plus_inv h2
    · exact ⟨(List.cons.inj e).2, rfl⟩
    · rw [(List.cons.inj e).2] at hn
      simp at hn
  · obtain ⟨hm, ⟨rfl, e⟩ | ⟨y, rfl, e⟩⟩ := plus_inv h2
    · rw [← (List.cons.inj e).2] at hm
      simp at hm
    · have e1 := splitOnce_app hn x
      rw [(List.cons.inj e).2, splitOnce_app hm y] at e1
      simp only [Prod.mk.injEq] at e1
      exact ⟨e1.1.symm, by rw [e1.2]⟩

theorem plusStep_plus {o n : Text} {v : Option Text} (h : Plus o n v) (d : List (Text × PlusVal)) :
    plusStep d o = dictSet d n (valOf v) := by
  cases h with
  | flag _ hn =>
    unfold plusStep
    simp only [if_true]
    rw [if_neg (by simp [hn])]
    rfl
  | value _ x hn =>
    unfold plusStep
    simp only [if_true]
    rw [if_pos (by simp), splitOnce_app hn]
    rfl

theorem plusStep_other {o : Text} (h : ∀ n v, ¬ Plus o n v) (d : List (Text × PlusVal)) : plusStep d o = d := by
  cases o with
  | nil => rfl
  | cons c rest =>
    unfold plusStep
    by_cases hc : c = 43
    · subst hc
      exfalso
      by_cases hm : 61 ∈ rest
      · obtain ⟨a, b, rfl, ha⟩ := first_of_mem hm
        exact h a (some b) (.value a b ha)
      · exact h rest none (.flag rest hm)
    · simp [hc]

theorem plus_dec (o : Text) : (∃ n v, Plus o n v) ∨ ∀ n v, ¬ Plus o n v := by
  by_cases h : ∃ n v, Plus o n v
  · exact .inl h
  · exact .inr fun n v hp => h ⟨n, v, hp⟩

theorem plusargs_get : ∀ (argv : List Text) (d : List (Text × PlusVal)) (name : Text) (x : PlusVal),
    dictGet (argv.foldl plusStep d) name = some x ↔
      (∃ pre o post v, argv = pre ++ o :: post ∧ Plus o name v ∧ x = valOf v ∧ ∀ o' ∈ post, ∀ w, ¬ Plus o' name w) ∨
      ((∀ o ∈ argv, ∀ w, ¬ Plus o name w) ∧ dictGet d name = some x)
  | [], d, name, x => by simp
  | o :: argv, d, name, x => by
    rw [List.foldl_cons, plusargs_get argv]
    constructor
    · rintro (⟨pre, o', post, v, rfl, h⟩ | ⟨h1, h2⟩)
      · exact .inl ⟨o :: pre, o', post, v, rfl, h⟩
      · rcases plus_dec o with ⟨n, v, hp⟩ | hn
        · rw [plusStep_plus hp, dictGet_set] at h2
          split at h2
          · next e =>
            subst e
            exact .inl ⟨[], o, argv, v, rfl, hp, (Option.some.inj h2).symm, h1⟩
          · next e =>
            refine .inr ⟨?_, h2⟩
            intro o' ho w hw
            rcases List.mem_cons.1 ho with rfl | ho
            · exact e (plus_unique hp hw).1
            · exact h1 o' ho w hw
        · rw [plusStep_other hn] at h2
          refine .inr ⟨?_, h2⟩
          intro o' ho w hw
          rcases List.mem_cons.1 ho with rfl | ho
          · exact hn _ _ hw
          · exact h1 o' ho w hw
    · rintro (⟨pre, o', post, v, h0, hp, h1, h2⟩ | ⟨h1, h2⟩)
      · cases pre with
        | nil =>
          obtain ⟨rfl, rfl⟩ := List.cons.inj h0
          exact .inr ⟨h2, by rw [plusStep_plus hp, dictGet_set_same, h1]⟩
        | cons y pre =>
          obtain ⟨rfl, rfl⟩ := List.cons.inj h0
          exact .inl ⟨pre, o', post, v, rfl, hp, h1, h2⟩
      · refine .inr ⟨fun o' ho => h1 o' (List.mem_cons_of_mem _ ho), ?_⟩
        rcases plus_dec o with ⟨n, v, hp⟩ | hn
        · rw [plusStep_plus hp, dictGet_set, if_neg, h2]
          rintro rfl
          exact h1 o List.mem_cons_self _ hp
        · rw [plusStep_other hn, h2]

end Verif.Env
