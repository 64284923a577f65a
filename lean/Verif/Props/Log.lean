import Verif.Lemmas.Log
import Verif.Lemmas.GpiLog
import Verif.Props.Env
/-!
# Properties of logging
-/
namespace Verif
open Verif.Log

/-- A text. -/
def Log.tx (s : String) : Text := s.toList.map Char.toNat

/-! ### C106: colours -/

/-- **C106** Stripping removes exactly the codes of a text for a terminal. -/
theorem C106_strip {t v : Text} (h : Shows t v) : stripAnsi t = v := h.strip

/-- A message in green and one with another code. -/
example : Shows (tx "a\x1b[32mok\x1b[0;1 qb\x1bMc") (tx "aokbc") :=
  ⟨[.char 97, .csi [51, 50] [] 109, .char 111, .char 107, .csi [48, 59, 49] [32] 113, .char 98, .short 77, .char 99],
    by simp [Tok.Ok], by decide, by decide⟩

/-- The full claim: if colours are stripped, no code is in what is logged. -/
def C106_no_code_full : Prop :=
  ∀ (pre : Text → Text → Text) (indent : Indent) (r : Rec) (a b : Text) (k : Tok), k.Ok → 27 ∈ k.text →
    format true pre indent r ≠ a ++ k.text ++ b

/-- The texts of exceptions are not stripped. -/
theorem C106_no_code_counterexample : ¬ C106_no_code_full := by
  intro h
  exact h (fun _ _ => []) (.fixed 2) ⟨20, tx "a", tx "\x1b[31mE", []⟩ (tx "a\n  ") (tx "E") (.csi [51, 49] [] 109)
    (by simp [Tok.Ok]) (by decide) (by decide)

/-- Removing a code can make another one of the rest. -/
theorem C106_nested_counterexample : stripAnsi (tx "\x1b\x1b[0m[31mred") = tx "\x1b[31mred" := by decide

/-- It holds if prefix and message are texts for a terminal and the exception has no codes: nothing of a code is left. -/
theorem C106_no_code_partial {pre : Text → Text → Text} {indent : Indent} {r : Rec} {p v : Text} (hp : Shows (pre [] []) p)
    (hm : Shows r.msg v) (he : 27 ∉ excInfo r) : 27 ∉ format true pre indent r := by
  have hplain : ∀ {t v : Text}, Shows t v → 27 ∉ v := by
    rintro t v ⟨ts, hts, -, rfl⟩ hx
    obtain ⟨k, hk, hx⟩ := List.mem_flatMap.mp hx
    cases k with
    | char c =>
      have : 27 = c := by simpa [Tok.seen] using hx
      exact hts _ hk this.symm
    | short c => cases hx
    | csi ps is f => cases hx
  have hs := (hp.append hm).strip
  have h27 : 27 ∉ p ++ v := hplain (hp.append hm)
  have hsplit : ∀ (cur t : Text), 27 ∉ cur → 27 ∉ t → ∀ l ∈ Log.splitGo cur t, 27 ∉ l := by
    intro cur t
    fun_induction Log.splitGo cur t with
    | case1 => simp
    | case2 => simp_all
    | case3 cur t ih =>
      intro h1 h2 l hl
      rcases List.mem_cons.mp hl with rfl | hl
      · exact h1
      · exact ih (by simp) (by simp at h2; exact h2) l hl
    | case4 cur c t _ _ ih =>
      intro h1 h2 l hl
      rcases List.mem_cons.mp hl with rfl | hl
      · exact h1
      · exact ih (by simp) (by simp at h2; exact h2.2) l hl
    | case5 cur c t _ _ ih =>
      intro h1 h2
      exact ih (by simp at h2 ⊢; exact ⟨h1, h2.1⟩) (by simp at h2; exact h2.2)
  have hjoin : ∀ (sep : Text) (ls : List Text), 27 ∉ sep → (∀ l ∈ ls, 27 ∉ l) → 27 ∉ joinText sep ls := by
    intro sep ls h1 h2
    induction ls with
    | nil => simp [joinText]
    | cons a l ih =>
      cases l with
      | nil => exact h2 a (by simp)
      | cons b l =>
        rw [joinText_cons _ _ (by simp)]
        simp only [List.mem_append, not_or]
        exact ⟨⟨h2 a (by simp), h1⟩, ih fun l hl => h2 l (List.mem_cons_of_mem _ hl)⟩
  have hout : 27 ∉ (if excInfo r ≠ [] then stripAnsi (pre [] [] ++ r.msg) ++ [10] ++ excInfo r
      else stripAnsi (pre [] [] ++ r.msg)) := by
    rw [hs]
    split
    · simp only [List.mem_append, List.mem_singleton, not_or] at h27 ⊢
      exact ⟨⟨h27, by simp⟩, he⟩
    · exact h27
  unfold format
  simp only [if_true]
  cases indent with
  | fixed n =>
    simp only
    split
    · exact hout
    · exact hjoin _ _ (by simp) (hsplit _ _ (by simp) hout)
  | func f =>
    simp only
    split
    · exact hout
    · exact hjoin _ _ (by simp) (hsplit _ _ (by simp) hout)

/-- A prefix in which codes are only added as asked for. -/
def Log.Colourable (pre : Text → Text → Text) : Prop :=
  ∀ s e, Shows s [] → Shows e [] → Shows (pre s e) (pre [] [])

/-- The full claim: with and without colours the same is seen. -/
def C106_colour_full : Prop :=
  ∀ (pre : Text → Text → Text) (indent : Indent) (r : Rec) (v : Text), Colourable pre → Shows r.msg v → 27 ∉ excInfo r →
    Shows (format false pre indent r) (format true pre indent r)

/-- A line feed at the end of a message makes a difference: with colours a line follows it, without it is dropped. -/
theorem C106_colour_counterexample : ¬ C106_colour_full := by
  intro h
  have := h (fun _ _ => tx "p ") (.fixed 2) ⟨20, tx "a\n", [], []⟩ (tx "a\n") (fun _ _ _ _ => Shows.plain (t := tx "p ") (by decide))
    (Shows.plain (by decide)) (by decide)
  have := this.strip
  exact absurd this (by decide)

/-- It holds if lines are ended by line feeds only, and none is at the end of message or exception. -/
theorem C106_colour_partial {pre : Text → Text → Text} {indent : Indent} {r : Rec} {v : Text} (hp : Colourable pre)
    (hm : Shows r.msg v) (he : 27 ∉ excInfo r) (lp : ∀ c ∈ pre [] [], ¬ isBreak c) (lv : PlainLines v)
    (lx : PlainLines (excInfo r)) (ev : v.getLast? ≠ some 10) (ex : (excInfo r).getLast? ≠ some 10) :
    Shows (format false pre indent r) (format true pre indent r) := by
  have h0 : Shows (pre [] []) (pre [] []) := hp [] [] Shows.nil Shows.nil
  have lp' : PlainLines (pre [] []) := fun c hc hb => absurd hb (lp c hc)
  -- output before exceptions
  have hs := (h0.append hm).strip
  let start := levelColour r.level
  let stop := if start = [] then [] else ansiDefault
  let col := if start ≠ [] then pre start stop ++ start ++ replaceText ansiDefault start r.msg ++ ansiDefault
    else pre start stop ++ r.msg ++ ansiDefault
  have hstart : Shows start [] := Shows.levelColour _
  have hstop : Shows stop [] := by
    show Shows (if start = [] then [] else ansiDefault) []
    split
    · exact Shows.nil
    · exact Shows.ansiDefault
  have hpc := hp start stop hstart hstop
  have hcol : Shows col (pre [] [] ++ v) := by
    show Shows (if start ≠ [] then _ else _) _
    split
    · have := ((hpc.append hstart).append (hm.replace hstart)).append Shows.ansiDefault
      simpa using this
    · have := (hpc.append hm).append Shows.ansiDefault
      simpa using this
  have hcl : col.getLast? = some 109 := by
    show (if start ≠ [] then _ else _ : Text).getLast? = _
    have hd : ∀ a : Text, (a ++ ansiDefault).getLast? = some 109 := by
      intro a; rw [List.getLast?_append]; rfl
    split <;> exact hd _
  -- with exceptions
  have hx : Shows (excInfo r) (excInfo r) := Shows.plain he
  let out := if excInfo r ≠ [] then col ++ [10] ++ excInfo r else col
  let out' := if excInfo r ≠ [] then stripAnsi (pre [] [] ++ r.msg) ++ [10] ++ excInfo r
    else stripAnsi (pre [] [] ++ r.msg)
  have hout : Shows out out' := by
    show Shows (if _ then _ else _) (if _ then _ else _)
    rw [hs]
    split
    · exact (hcol.append (Shows.plain (by simp))).append hx
    · exact hcol
  have lout' : PlainLines out' := by
    show PlainLines (if _ then _ else _)
    rw [hs]
    intro c hc hb
    have hmem : c ∈ pre [] [] ∨ c ∈ v ∨ c = 10 ∨ c ∈ excInfo r := by
      split at hc
      · simp only [List.mem_append, List.mem_singleton] at hc
        grind
      · simp only [List.mem_append] at hc
        grind
    rcases hmem with h | h | h | h
    · exact lp' c h hb
    · exact lv c h hb
    · exact h
    · exact lx c h hb
  have lasts : ∀ a b : Text, b ≠ [] → (a ++ b).getLast? = b.getLast? := by
    intro a b hb
    rw [List.getLast?_append, List.getLast?_eq_some_getLast hb]; rfl
  have eout : out.getLast? ≠ some 10 := by
    show (if excInfo r ≠ [] then col ++ [10] ++ excInfo r else col : Text).getLast? ≠ _
    split
    · next h => rw [lasts _ _ h]; exact ex
    · rw [hcl]; simp
  have eout' : out'.getLast? ≠ some 10 := by
    show (if excInfo r ≠ [] then stripAnsi (pre [] [] ++ r.msg) ++ [10] ++ excInfo r
      else stripAnsi (pre [] [] ++ r.msg) : Text).getLast? ≠ _
    rw [hs]
    split
    · next h => rw [lasts _ _ h]; exact ex
    · by_cases hv : v = []
      · subst hv
        rw [List.append_nil]
        intro hl
        exact lp 10 (List.mem_of_getLast? hl) (by decide)
      · rw [lasts _ _ hv]; exact ev
  have key : ∀ n, Shows (joinText (10 :: List.replicate n 32) (splitlines out))
      (joinText (10 :: List.replicate n 32) (splitlines out')) := by
    intro n
    rw [join_splitlines (hout.plainLines lout') eout, join_splitlines lout' eout']
    exact hout.layout (by simp)
  have e1 : format false pre indent r = match (generalizing := false) indent with
      | .fixed n => if ¬ (excInfo r ≠ [] ∨ 10 ∈ r.msg) ∨ n = 0 then out
        else joinText (10 :: List.replicate n 32) (splitlines out)
      | .func f => if ¬ (excInfo r ≠ [] ∨ 10 ∈ r.msg) then out
        else joinText (10 :: List.replicate (f (stripAnsi (pre start stop))) 32) (splitlines out) := rfl
  have e2 : format true pre indent r = match (generalizing := false) indent with
      | .fixed n => if ¬ (excInfo r ≠ [] ∨ 10 ∈ r.msg) ∨ n = 0 then out'
        else joinText (10 :: List.replicate n 32) (splitlines out')
      | .func f => if ¬ (excInfo r ≠ [] ∨ 10 ∈ r.msg) then out'
        else joinText (10 :: List.replicate (f (stripAnsi (pre [] []))) 32) (splitlines out') := rfl
  rw [e1, e2]
  cases indent with
  | fixed n =>
    simp only
    split
    · exact hout
    · exact key n
  | func f =>
    simp only
    rw [hpc.strip, h0.strip]
    split
    · exact hout
    · exact key _

theorem Log.ljust_mem {t : Text} {n c : Nat} (h : c ∈ ljust t n) : c ∈ t ∨ c = 32 ∨ c = 46 := by
  unfold ljust padRight sliceFrom at h
  split at h
  · split at h <;> simp only [List.mem_append, List.mem_cons, List.not_mem_nil, or_false] at h <;>
      rcases h with h | h
    · exact .inr (.inr (by omega))
    · exact .inl (List.mem_of_mem_drop h)
    · exact .inr (.inr (by omega))
    · exact .inl (List.mem_of_mem_drop h)
  · simp only [List.mem_append, List.mem_replicate] at h
    rcases h with h | h
    · exact .inl h
    · exact .inr (.inl h.2)

theorem Log.rjust_mem {t : Text} {n c : Nat} (h : c ∈ rjust t n) : c ∈ t ∨ c = 32 ∨ c = 46 := by
  unfold rjust padLeft sliceFrom at h
  split at h
  · split at h <;> simp only [List.mem_append, List.mem_cons, List.not_mem_nil, or_false] at h <;>
      rcases h with h | h
    · exact .inr (.inr (by omega))
    · exact .inl (List.mem_of_mem_drop h)
    · exact .inr (.inr (by omega))
    · exact .inl (List.mem_of_mem_drop h)
  · simp only [List.mem_append, List.mem_replicate] at h
    rcases h with h | h
    · exact .inr (.inl h.2)
    · exact .inl h

/-- **C106** The default prefix is such a prefix, if no name has codes in it. -/
theorem C106_default_prefix (reduced : Bool) (h : Head) (ht : 27 ∉ h.time) (hl : 27 ∉ h.levelname) (hn : 27 ∉ h.name)
    (hf : 27 ∉ h.file) (hi : 27 ∉ h.line) (hu : 27 ∉ h.func) : Colourable (defaultPrefix reduced h) := by
  intro s e hs he
  have j1 : ∀ {t : Text} {n : Nat}, 27 ∉ t → 27 ∉ ljust t n := by
    intro t n ht hx
    rcases ljust_mem hx with h | h | h
    · exact ht h
    · omega
    · omega
  have j2 : ∀ {t : Text} {n : Nat}, 27 ∉ t → 27 ∉ rjust t n := by
    intro t n ht hx
    rcases rjust_mem hx with h | h | h
    · exact ht h
    · omega
    · omega
  have p1 : ∀ {t : Text} {n : Nat}, 27 ∉ t → 27 ∉ padLeft t n := by
    intro t n ht; simp [padLeft, ht]
  have p2 : ∀ {t : Text} {n : Nat}, 27 ∉ t → 27 ∉ padRight t n := by
    intro t n ht; simp [padRight, ht]
  have base : Shows (padLeft h.time 11 ++ [32] ++ s ++ padRight h.levelname 8 ++ e ++ [32] ++ ljust h.name 34 ++ [32])
      (padLeft h.time 11 ++ [32] ++ [] ++ padRight h.levelname 8 ++ [] ++ [32] ++ ljust h.name 34 ++ [32]) :=
    (((((((Shows.plain (p1 ht)).append (Shows.plain (by simp))).append hs).append (Shows.plain (p2 hl))).append he).append
      (Shows.plain (by simp))).append (Shows.plain (j1 hn))).append (Shows.plain (by simp))
  unfold defaultPrefix
  cases reduced
  · exact (((((base.append (Shows.plain (j2 hf))).append (Shows.plain (by simp))).append (Shows.plain (p2 hi))).append
      (Shows.plain (by simp))).append (Shows.plain (j1 hu))).append (Shows.plain (by simp))
  · exact base

/-- A coloured warning of two lines. -/
example : format false (defaultPrefix true ⟨tx "1.00ns", tx "WARNING", tx "top", [], [], []⟩) (defaultIndent true)
      ⟨30, tx "a\nb", [], []⟩ =
    tx "     1.00ns \x1b[33mWARNING \x1b[49m\x1b[39m top                                \x1b[33ma\n                                                        b\x1b[49m\x1b[39m" ∧
    format true (defaultPrefix true ⟨tx "1.00ns", tx "WARNING", tx "top", [], [], []⟩) (defaultIndent true)
      ⟨30, tx "a\nb", [], []⟩ =
    tx "     1.00ns WARNING  top                                a\n                                                        b" := by
  decide +kernel

/-! ### C107: messages of several lines -/

/-- The blanks before lines after the first. -/
def Log.Indent.width (i : Indent) (p : Text) : Nat :=
  match i with
  | .fixed n => n
  | .func f => f p

/-- The full claim: all lines of the message, of the exception and of the stack are logged, in order, the first after the
prefix and the others after the indentation. -/
def C107_lines_full : Prop :=
  ∀ (pre : Text → Text → Text) (indent : Indent) (r : Rec) (l : Text) (ls es ss : List Text),
    (∀ c ∈ pre [] [], ¬ isBreak c ∧ c ≠ 27) → (∀ t ∈ l :: ls ++ (es ++ ss), 10 ∉ t ∧ 27 ∉ t) → r.msg = joinText [10] (l :: ls) →
    r.exc = joinText [10] es → r.stack = joinText [10] ss →
    format true pre indent r =
      joinText (10 :: List.replicate (indent.width (pre [] [])) 32) ((pre [] [] ++ l) :: ls ++ (es ++ ss))

/-- An empty last line is dropped. -/
theorem C107_lines_counterexample : ¬ C107_lines_full := by
  intro h
  exact absurd (h (fun _ _ => tx "p ") (.fixed 2) ⟨20, tx "a\n", [], []⟩ (tx "a") [[]] [] [] (by decide) (by decide) (by decide)
    (by decide) (by decide)) (by decide)

/-- There is an empty line before a stack without an exception. -/
theorem C107_stack_counterexample :
    format true (fun _ _ => tx "p ") (.fixed 2) ⟨20, tx "a", [], tx "s"⟩ = tx "p a\n  \n  s" := by decide

/-- A carriage return ends a line in messages of several lines, not in others. -/
theorem C107_return_counterexample :
    format true (fun _ _ => []) (.fixed 0) ⟨20, tx "a\rb", [], []⟩ = tx "a\rb" ∧
    format true (fun _ _ => []) (.fixed 1) ⟨20, tx "a\rb\nc", [], []⟩ = tx "a\n b\n c" := by decide

theorem Log.flatMap_layout {sp t : Text} (h : 10 ∉ t) : t.flatMap (layout sp) = t := by
  induction t with
  | nil => rfl
  | cons c t ih =>
    have hc : c ≠ 10 := fun e => h (by simp [e])
    rw [List.flatMap_cons, ih fun hx => h (by simp [hx]), layout, if_neg hc]
    rfl

theorem Log.layout_join {sp : Text} {ls : List Text} (h : ∀ t ∈ ls, 10 ∉ t) :
    (joinText [10] ls).flatMap (layout sp) = joinText (10 :: sp) ls := by
  induction ls with
  | nil => rfl
  | cons a l ih =>
    cases l with
    | nil => exact flatMap_layout (h a (by simp))
    | cons b l =>
      rw [joinText_cons2 _ a b l, joinText_cons2 _ a b l, List.flatMap_append, List.flatMap_append,
        ih fun t ht => h t (List.mem_cons_of_mem _ ht), flatMap_layout (h a (by simp))]
      simp [layout]

theorem Log.joinText_append {sep : Text} {a b : List Text} (ha : a ≠ []) (hb : b ≠ []) :
    joinText sep (a ++ b) = joinText sep a ++ sep ++ joinText sep b := by
  induction a with
  | nil => exact absurd rfl ha
  | cons x a ih =>
    cases a with
    | nil => rw [List.singleton_append, joinText_cons _ _ hb]; rfl
    | cons y a =>
      rw [List.cons_append, joinText_cons _ x (by simp), ih (by simp), joinText_cons2 _ x y a]
      simp

theorem Log.joinText_mem {sep : Text} {ls : List Text} {c : Nat} (h : c ∈ joinText sep ls) : c ∈ sep ∨ ∃ l ∈ ls, c ∈ l := by
  induction ls with
  | nil => cases h
  | cons a l ih =>
    cases l with
    | nil => exact .inr ⟨a, by simp, h⟩
    | cons b l =>
      rw [joinText_cons _ _ (by simp)] at h
      simp only [List.mem_append] at h
      rcases h with (h | h) | h
      · exact .inr ⟨a, by simp, h⟩
      · exact .inl h
      · rcases ih h with h | ⟨x, hx, h⟩
        · exact .inl h
        · exact .inr ⟨x, List.mem_cons_of_mem _ hx, h⟩

theorem Log.joinText_last {sep : Text} {ls : List Text} {l : Text} (h : ls.getLast? = some l) (hl : l ≠ []) :
    (joinText sep ls).getLast? = l.getLast? := by
  induction ls with
  | nil => cases h
  | cons a ls ih =>
    cases ls with
    | nil => obtain rfl : a = l := by simpa using h
             rfl
    | cons b ls =>
      rw [List.getLast?_cons_cons] at h
      rw [joinText_cons _ _ (by simp), List.getLast?_append, ih h, List.getLast?_eq_some_getLast hl]
      rfl

theorem Log.format_lines {pre : Text → Text → Text} {indent : Indent} {r : Rec} {l : Text} {ls es : List Text}
    (hp : ∀ c ∈ pre [] [], ¬ isBreak c ∧ c ≠ 27) (hl : ∀ t ∈ l :: ls ++ es, ∀ c ∈ t, ¬ isBreak c ∧ c ≠ 27)
    (he : ∀ t, (ls ++ es).getLast? = some t → t ≠ [])
    (hm : r.msg = joinText [10] (l :: ls)) (hx : excInfo r = joinText [10] es) :
    format true pre indent r = joinText (10 :: List.replicate (indent.width (pre [] [])) 32) ((pre [] [] ++ l) :: ls ++ es) := by
  have n10 : ∀ c, ¬ isBreak c = true → c ≠ 10 := by
    intro c h e
    subst e
    exact h (by decide)
  have hp27 : 27 ∉ pre [] [] := fun h => (hp 27 h).2 rfl
  have hm27 : 27 ∉ r.msg := by
    rw [hm]
    intro h
    rcases joinText_mem h with h | ⟨t, ht, h⟩
    · simp at h
    · exact (hl t (by simp only [List.cons_append, List.mem_cons, List.mem_append] at ht ⊢; grind) _ h).2 rfl
  have hs : stripAnsi (pre [] [] ++ r.msg) = pre [] [] ++ r.msg :=
    ((Shows.plain hp27).append (Shows.plain hm27)).strip
  have hs0 : stripAnsi (pre [] []) = pre [] [] := (Shows.plain hp27).strip
  -- the lines of all
  have hall : ∀ t ∈ (pre [] [] ++ l) :: ls ++ es, ∀ c ∈ t, ¬ isBreak c := by
    intro t ht c hc
    simp only [List.cons_append, List.mem_cons, List.mem_append] at ht
    rcases ht with rfl | ht
    · rcases List.mem_append.mp hc with hc | hc
      · exact (hp c hc).1
      · exact (hl l (by simp) c hc).1
    · exact (hl t (by simp only [List.cons_append, List.mem_cons, List.mem_append]; exact .inr ht) c hc).1
  have hes : excInfo r = [] → es = [] := by
    intro h
    rw [hx] at h
    cases hg : es.getLast? with
    | none => exact List.getLast?_eq_none_iff.mp hg
    | some t =>
      have ht : t ≠ [] := he t (by rw [List.getLast?_append, hg]; rfl)
      have := joinText_last (sep := [10]) hg ht
      rw [h, List.getLast?_eq_some_getLast ht] at this
      cases this
  have hout : (if excInfo r ≠ [] then stripAnsi (pre [] [] ++ r.msg) ++ [10] ++ excInfo r
      else stripAnsi (pre [] [] ++ r.msg)) = joinText [10] ((pre [] [] ++ l) :: ls ++ es) := by
    have e1 : pre [] [] ++ r.msg = joinText [10] ((pre [] [] ++ l) :: ls) := by
      rw [hm]
      cases ls with
      | nil => rfl
      | cons b ls => rw [joinText_cons2 _ l b ls, joinText_cons2 _ _ b ls]; simp
    rw [hs, e1]
    split
    · next h =>
      have : es ≠ [] := fun e => h (by rw [hx, e]; rfl)
      rw [joinText_append (by simp) this, hx]
    · next h => rw [hes (by simpa using h), List.append_nil]
  have key : ∀ n, joinText (10 :: List.replicate n 32) (splitlines (joinText [10] ((pre [] [] ++ l) :: ls ++ es))) =
      joinText (10 :: List.replicate n 32) ((pre [] [] ++ l) :: ls ++ es) := by
    intro n
    rw [join_splitlines, layout_join]
    · exact fun t ht h => n10 _ (hall t ht _ h) rfl
    · intro c hc hb
      rcases joinText_mem hc with h | ⟨t, ht, h⟩
      · simpa using h
      · exact absurd hb (hall t ht c h)
    · intro hlast
      cases hg : (ls ++ es).getLast? with
      | none =>
        have hnil : ls ++ es = [] := List.getLast?_eq_none_iff.mp hg
        rw [List.cons_append, hnil] at hlast
        exact n10 _ (hall (pre [] [] ++ l) (by simp) _ (List.mem_of_getLast? (show (pre [] [] ++ l).getLast? = _ from hlast))) rfl
      | some t =>
        have ht := he t hg
        have hg' : ((pre [] [] ++ l) :: ls ++ es).getLast? = some t := by
          rw [List.cons_append, List.getLast?_cons, hg]; rfl
        rw [joinText_last hg' ht] at hlast
        exact n10 _ (hall _ (List.mem_of_getLast? hg') _ (List.mem_of_getLast? hlast)) rfl
  have single : ¬ (excInfo r ≠ [] ∨ 10 ∈ r.msg) → ls = [] ∧ es = [] := by
    intro h
    simp only [not_or, ne_eq, Classical.not_not] at h
    refine ⟨?_, hes h.1⟩
    cases ls with
    | nil => rfl
    | cons b ls =>
      exfalso
      apply h.2
      rw [hm, joinText_cons2 _ l b ls]
      simp
  have zero : joinText (10 :: List.replicate 0 32) ((pre [] [] ++ l) :: ls ++ es) = joinText [10] ((pre [] [] ++ l) :: ls ++ es) := rfl
  have e2 : format true pre indent r = match (generalizing := false) indent with
      | .fixed n => if ¬ (excInfo r ≠ [] ∨ 10 ∈ r.msg) ∨ n = 0 then joinText [10] ((pre [] [] ++ l) :: ls ++ es)
        else joinText (10 :: List.replicate n 32) (splitlines (joinText [10] ((pre [] [] ++ l) :: ls ++ es)))
      | .func f => if ¬ (excInfo r ≠ [] ∨ 10 ∈ r.msg) then joinText [10] ((pre [] [] ++ l) :: ls ++ es)
        else joinText (10 :: List.replicate (f (stripAnsi (pre [] []))) 32)
          (splitlines (joinText [10] ((pre [] [] ++ l) :: ls ++ es))) := by
    rw [← hout]; rfl
  rw [e2]
  cases indent with
  | fixed n =>
    simp only [Indent.width]
    split
    · next h =>
      rcases h with h | h
      · obtain ⟨rfl, rfl⟩ := single h; rfl
      · subst h; rfl
    · exact key n
  | func f =>
    simp only [Indent.width]
    rw [hs0]
    split
    · next h => obtain ⟨rfl, rfl⟩ := single h; rfl
    · exact key _

/-- It holds if the lines contain no other characters that end lines, the last lines of message, exception and stack are not
empty, and there is a stack with an exception only. -/
theorem C107_lines_partial {pre : Text → Text → Text} {indent : Indent} {r : Rec} {l : Text} {ls es ss : List Text}
    (hp : ∀ c ∈ pre [] [], ¬ isBreak c ∧ c ≠ 27) (hl : ∀ t ∈ l :: ls ++ (es ++ ss), ∀ c ∈ t, ¬ isBreak c ∧ c ≠ 27)
    (h1 : ∀ t, ls.getLast? = some t → t ≠ []) (h2 : ∀ t, es.getLast? = some t → t ≠ [])
    (h3 : ∀ t, ss.getLast? = some t → t ≠ []) (hss : ss ≠ [] → es ≠ [])
    (hm : r.msg = joinText [10] (l :: ls)) (hx : r.exc = joinText [10] es) (hk : r.stack = joinText [10] ss) :
    format true pre indent r =
      joinText (10 :: List.replicate (indent.width (pre [] [])) 32) ((pre [] [] ++ l) :: ls ++ (es ++ ss)) := by
  refine format_lines hp hl ?_ hm ?_
  · intro t ht
    rw [List.getLast?_append, List.getLast?_append] at ht
    cases hs : ss.getLast? with
    | some x => rw [hs] at ht; exact h3 t (by simpa [hs] using ht)
    | none =>
      cases he : es.getLast? with
      | some x => rw [hs, he] at ht; exact h2 t (by simpa [he] using ht)
      | none => rw [hs, he] at ht; exact h1 t (by simpa using ht)
  · unfold excInfo
    by_cases hs : ss = []
    · subst hs
      rw [if_pos (show r.stack = [] from hk), List.append_nil, hx]
    · have hes := hss hs
      have hsne : r.stack ≠ [] := by
        rw [hk]
        intro h
        have hg := List.getLast?_eq_some_getLast hs
        have hn := h3 _ hg
        have := joinText_last (sep := [10]) hg hn
        rw [h, List.getLast?_eq_some_getLast hn] at this
        cases this
      have hlast : r.exc.getLast? ≠ some 10 := by
        have hg := List.getLast?_eq_some_getLast hes
        rw [hx, joinText_last hg (h2 _ hg)]
        intro h
        have := (hl _ (by simp only [List.mem_append]; exact .inr (.inl (List.mem_of_getLast? hg))) _ (List.mem_of_getLast? h)).1
        exact this (by decide)
      rw [if_neg hsne, if_neg hlast, joinText_append hes hs, hx, hk]

/-- A message of two lines with an exception of two lines and a stack. -/
example : format true (fun _ _ => tx "p ") (.func List.length) ⟨40, tx "a\nb", tx "c\nd", tx "e"⟩ = tx "p a\n  b\n  c\n  d\n  e" := by
  decide

/-- The full claim: with the default prefix all lines of a message begin in the same column. -/
def C107_aligned_full : Prop :=
  ∀ (reduced : Bool) (h : Head), (defaultIndent reduced).width (defaultPrefix reduced h [] []) = (defaultPrefix reduced h [] []).length

/-- From a simulation time of a millisecond on they do not. -/
theorem C107_aligned_counterexample : ¬ C107_aligned_full := by
  intro h
  exact absurd (h true ⟨tx "1000000.00ns", tx "INFO", tx "top", [], [], []⟩) (by decide +kernel)

theorem Log.ljust_length {t : Text} {n : Nat} (hn : 3 ≤ n) : (ljust t n).length = n := by
  unfold ljust sliceFrom padRight
  split
  · rw [if_pos (by omega)]
    simp only [List.length_append, List.length_cons, List.length_nil, List.length_drop]
    omega
  · simp; omega

theorem Log.rjust_length {t : Text} {n : Nat} (hn : 3 ≤ n) : (rjust t n).length = n := by
  unfold rjust sliceFrom padLeft
  split
  · rw [if_pos (by omega)]
    simp only [List.length_append, List.length_cons, List.length_nil, List.length_drop]
    omega
  · simp; omega

/-- They do if the text of the time has at most 11 characters, the name of the level at most 8 and the line number at most 4,
however long the other names are. -/
theorem C107_aligned_partial (reduced : Bool) {h : Head} (ht : h.time.length ≤ 11) (hl : h.levelname.length ≤ 8)
    (hi : h.line.length ≤ 4) :
    (defaultIndent reduced).width (defaultPrefix reduced h [] []) = (defaultPrefix reduced h [] []).length := by
  have hw : ∀ h : Head, h.time.length ≤ 11 → h.levelname.length ≤ 8 → h.line.length ≤ 4 →
      (defaultPrefix reduced h [] []).length = if reduced then 56 else 117 := by
    intro h ht hl hi
    unfold defaultPrefix
    cases reduced <;>
      simp [padLeft, padRight, ljust_length, rjust_length] <;> omega
  have h27 : ∀ t : Text, 27 ∉ t → stripAnsi t = t := fun t h => (Shows.plain h).strip
  rw [hw h ht hl hi, defaultIndent, Indent.width, h27, hw]
  · decide
  · decide
  · decide
  · cases reduced <;> decide +kernel

/-! ### C108: columns -/

/-- The full claim: `ljust` and `rjust` give texts of the width asked for. -/
def C108_width_full : Prop := ∀ (t : Text) (n : Nat), (ljust t n).length = n ∧ (rjust t n).length = n

/-- With a width of 2 longer texts are not shortened. -/
theorem C108_width_counterexample : ¬ C108_width_full := by
  intro h
  exact absurd (h (tx "abc") 2) (by decide)

/-- They do for widths of 3 and more, and for texts that fit. -/
theorem C108_width_partial {t : Text} {n : Nat} (h : 3 ≤ n ∨ t.length ≤ n) : (ljust t n).length = n ∧ (rjust t n).length = n := by
  rcases h with h | h
  · exact ⟨ljust_length h, rjust_length h⟩
  · unfold ljust rjust padLeft padRight
    rw [if_neg (by omega), if_neg (by omega)]
    simp; omega

/-- **C108** A text that fits is completed with blanks, a longer one shortened from the left, with two dots before it. -/
theorem C108_text {t : Text} {n : Nat} (hn : 3 ≤ n) :
    (t.length ≤ n → ljust t n = t ++ List.replicate (n - t.length) 32 ∧ rjust t n = List.replicate (n - t.length) 32 ++ t) ∧
    (n < t.length → ∃ a b, t = a ++ b ∧ b.length = n - 2 ∧ ljust t n = [46, 46] ++ b ∧ rjust t n = [46, 46] ++ b) := by
  constructor
  · intro h
    unfold ljust rjust padLeft padRight
    rw [if_neg (by omega), if_neg (by omega)]
    exact ⟨rfl, rfl⟩
  · intro h
    have e : (((n : Int) - 2) * -1).natAbs = n - 2 := by omega
    refine ⟨t.take (t.length - (n - 2)), t.drop (t.length - (n - 2)), by simp, by simp; omega, ?_, ?_⟩
    · unfold ljust sliceFrom
      rw [if_pos h, if_pos (by omega), e]
    · unfold rjust sliceFrom
      rw [if_pos h, if_pos (by omega), e]

example : ljust (tx "cocotb.regression") 10 = tx "..gression" ∧ rjust (tx "a.py") 6 = tx "  a.py" := by decide

/-! ### C109: levels of messages of the GPI -/

open Verif.GpiLog in
/-- The full claim: a message of the GPI is logged exactly if its logger is to log it. -/
def C109_level_full : Prop :=
  ∀ (h : List GpiLog.Op) (name : GpiLog.Name) (level : Nat), GpiLog.Op.setup ∈ h →
    (GpiLog.log (run h) name level = .python ↔ ToLog h name level)

open Verif.GpiLog in
/-- With the level INFO for `gpi`, messages for debugging of the logger `pygpi` are lost although it has the level DEBUG. -/
theorem C109_level_counterexample : ¬ C109_level_full := by
  intro h
  have := (h [.setup, .setLevel gpi 20, .setLevel ["pygpi"] 10] ["pygpi"] 10 (by simp)).2
    ⟨by decide, 10, Effective.own (own := ownLevel _) (by decide), Nat.le_refl _⟩
  exact absurd this (by decide)

open Verif.GpiLog in
/-- If `gpi` has no level of its own, a later change of the root logger's is not noticed. -/
theorem C109_root_counterexample :
    let h : List GpiLog.Op := [.setup, .setLevel gpi 0, .setLevel [] 10]
    ToLog h gpi 10 ∧ GpiLog.log (run h) gpi 10 = .dropped := by
  refine ⟨⟨by decide, 10, ?_, Nat.le_refl _⟩, by decide⟩
  exact Effective.inherited (own := ownLevel _) (by decide) (Effective.own (own := ownLevel _) (by decide))

open Verif.GpiLog in
/-- **C109** No message is logged that is not to be logged. -/
theorem C109_quiet {h : List GpiLog.Op} {name : GpiLog.Name} {level : Nat} (e : GpiLog.log (run h) name level = .python) :
    ToLog h name level := by
  unfold GpiLog.log at e
  split at e
  · cases e
  · split at e
    · split at e <;> cases e
    · split at e
      · next he => exact (enabled_iff h name level).1 he
      · cases e

open Verif.GpiLog in
/-- The claim holds for loggers with levels not below that of `gpi`, `gpi` itself among them, if that level is never unset. -/
theorem C109_level_partial {h : List GpiLog.Op} {name : GpiLog.Name} {level : Nat} (hs : GpiLog.Op.setup ∈ h)
    (hn : GpiLog.Op.setLevel gpi 0 ∉ h) {lg l : Nat} (hg : Effective (ownLevel h) gpi lg) (hl : Effective (ownLevel h) name l)
    (hle : lg ≤ l) : GpiLog.log (run h) name level = .python ↔ ToLog h name level := by
  refine ⟨C109_quiet, fun hlog => ?_⟩
  have hr := (run_ready h).2 hs
  have he := (enabled_iff h name level).2 hlog
  obtain ⟨-, l', hl', hll⟩ := hlog
  rw [effective_iff] at hg hl hl'
  have hloc : ¬ ((run h).loc ≠ 0 ∧ level < (run h).loc) := by
    rintro ⟨h1, h2⟩
    rcases run_loc hn with h3 | ⟨h3, h4⟩
    · exact h1 h3
    · have : effective (ownLevel h) gpi = ownLevel h gpi := by simp [effective, gpi] at h4 ⊢; simp [h4]
      omega
  unfold GpiLog.log
  rw [if_neg hloc, hr, he]
  rfl

open Verif.GpiLog in
/-- Levels set before and after the set-up; the logger `gpi` and a child of it. -/
example :
    let h : List GpiLog.Op := [.setLevel gpi 20, .setup, .setLevel gpi 10, .setLevel [] 40]
    GpiLog.log (run h) gpi 10 = .python ∧ GpiLog.log (run h) ["vpi", "gpi"] 10 = .python ∧
    GpiLog.log (run h) gpi 5 = .dropped ∧ Effective (ownLevel h) gpi 10 ∧ Effective (ownLevel h) ["vpi", "gpi"] 10 := by
  refine ⟨by decide, by decide, by decide, Effective.own (own := ownLevel _) (by decide), ?_⟩
  exact Effective.inherited (own := ownLevel _) (by decide) (Effective.own (own := ownLevel _) (by decide))

/-! ### C110: texts of messages of the GPI -/

open Verif.GpiLog in
/-- **C110** Whatever the lengths of the messages, each is passed on whole. -/
theorem C110_whole (cap : Nat) (ms : List (Text × Nat)) : buffers cap ms = ms.map (·.1) := by
  induction ms generalizing cap with
  | nil => rfl
  | cons m ms ih =>
    obtain ⟨t, x⟩ := m
    rw [buffers, ih, List.map_cons]
    congr 1
    unfold buffer vsnprintf
    split
    · simp
    · exact List.take_of_length_le (by omega)

example : GpiLog.buffers 512 [(List.replicate 2000 97, 0), ([98], 3), (List.replicate 2001 99, 0)] =
    [List.replicate 2000 97, [98], List.replicate 2001 99] := by rw [C110_whole]; rfl

/-- The full claim: a message is shown with its text, also if Python cannot take it. -/
def C110_shown_full : Prop := ∀ (ok : Bool) (t : Text), GpiLog.shown ok t = some t

/-- The fallback takes the text for a format, and reads arguments that are not there. -/
theorem C110_shown_counterexample : ¬ C110_shown_full := by
  intro h
  exact absurd (h false (tx "50%d")) (by decide)

/-- It holds for messages Python takes, and for messages without percent signs. -/
theorem C110_shown_partial {ok : Bool} {t : Text} (h : ok = true ∨ 37 ∉ t) : GpiLog.shown ok t = some t := by
  unfold GpiLog.shown
  split
  · rfl
  · rcases h with h | h
    · contradiction
    · exact GpiLog.formatNoArgs_plain h

/-! ### C111: when there are colours -/

open Verif.Env Verif.EnvSpec Verif.GpiLog

/-- The full claim, for a terminal without a graphical interface: COCOTB_ANSI_OUTPUT decides; if it is not set, colours are
used unless NO_COLOR is set to something. -/
def C111_colour_full : Prop :=
  ∀ (U : Unicode) (env : Environ), U.Ok → env (var "GUI") = none → env (var "COCOTB_ANSI_OUTPUT") = none →
    ∀ v, env (var "NO_COLOR") = some v → v ≠ [] → stripInit U env true = .ok true

/-- NO_COLOR set to a blank counts as not set. -/
theorem C111_colour_counterexample : ¬ C111_colour_full := by
  intro h
  have := h ⟨fun c => [c], fun _ => none⟩ (fun n => if n = var "NO_COLOR" then some [32] else none)
    (fun c hc => .inr ⟨c, by simp, hc⟩) (by decide) (by decide) [32] (by decide) (by decide)
  exact absurd this (by decide)

/-- It holds if NO_COLOR is set to something that is not blank. -/
theorem C111_colour_partial {U : Unicode} {env : Environ} {tty : Bool} {v t : Text}
    (ha : env (var "COCOTB_ANSI_OUTPUT") = none) (hv : env (var "NO_COLOR") = some v) (ht : Trimmed v t) (hne : t ≠ []) :
    stripInit U env tty = .ok true := by
  have h1 : getStr env (var "NO_COLOR") none = t := getStr_none hv ht
  have h2 : ∀ d, getBool U env (var "COCOTB_ANSI_OUTPUT") (some d) = .ok d := by
    intro d; unfold getBool; rw [getStr_unset ha]; rfl
  unfold stripInit
  rw [h1]
  cases tty <;> simp [hne, h2, bind, Except.bind, pure, Except.pure]

/-- **C111** COCOTB_ANSI_OUTPUT decides, whatever NO_COLOR, the terminal and a valid value of GUI. -/
theorem C111_override {U : Unicode} (hU : U.Ok) {env : Environ} {tty : Bool} {v t : Text} {b g : Bool}
    (hv : env (var "COCOTB_ANSI_OUTPUT") = some v) (ht : Trimmed v t) (hne : t ≠ []) (hb : Means b t)
    (hg : getBool U env (var "GUI") none = .ok g) : stripInit U env tty = .ok (!b) := by
  have h2 : ∀ d, getBool U env (var "COCOTB_ANSI_OUTPUT") (some d) = .ok b := fun d =>
    (((C63_bool U hU env _ (some d)).2 v t hv ht).2.1 hne b).2 hb
  unfold stripInit
  rw [hg]
  cases tty <;> by_cases hn : getStr env (var "NO_COLOR") none = [] <;>
    simp [hn, h2, bind, Except.bind, pure, Except.pure]

/-- **C111** Without the two variables colours are used for terminals without a graphical interface. -/
theorem C111_default {U : Unicode} {env : Environ} {tty g : Bool} (ha : env (var "COCOTB_ANSI_OUTPUT") = none)
    (hn : env (var "NO_COLOR") = none) (hg : getBool U env (var "GUI") none = .ok g) :
    stripInit U env tty = .ok (!(tty && !g)) := by
  have h2 : ∀ d, getBool U env (var "COCOTB_ANSI_OUTPUT") (some d) = .ok d := by
    intro d; unfold getBool; rw [getStr_unset ha]; rfl
  have h1 : getStr env (var "NO_COLOR") none = [] := getStr_unset hn
  unfold stripInit
  rw [hg]
  cases tty <;> simp [h1, h2, bind, Except.bind, pure, Except.pure]

/-- Colours forced into a file. -/
example : stripInit ⟨fun c => [c], fun _ => none⟩
    (fun n => if n = var "NO_COLOR" then some [49] else if n = var "COCOTB_ANSI_OUTPUT" then some (var " Yes") else none) false =
    .ok false := by decide

end Verif
