import Verif.Spec.Log
/-!
# Lemmas about the formatter for log messages
-/
namespace Verif.Log

theorem takeWhile_stop {p : Nat → Bool} {u t : Text} {f : Nat} (hu : ∀ c ∈ u, p c = true) (hf : p f = false) :
    (u ++ f :: t).takeWhile p = u ∧ (u ++ f :: t).dropWhile p = f :: t := by
  induction u with
  | nil => simp [hf]
  | cons c u ih =>
    have hc := hu c (by simp)
    have ih := ih fun c hc => hu c (by simp [hc])
    simp [hc, ih.1, ih.2]

theorem Tok.Ok.csi_params {ps is : Text} {f : Nat} (h : (Tok.csi ps is f).Ok) (t : Text) :
    (ps ++ is ++ [f] ++ t).takeWhile isParam = ps ∧ (ps ++ is ++ [f] ++ t).dropWhile isParam = is ++ [f] ++ t := by
  obtain ⟨h1, h2, h3, h4⟩ := h
  have hps : ∀ c ∈ ps, isParam c = true := fun c hc => by have := h1 c hc; simp [isParam]; omega
  cases is with
  | nil =>
    have := takeWhile_stop (t := t) hps (f := f) (by simp [isParam]; omega)
    simpa using this
  | cons i is =>
    have := h2 i (by simp)
    have := takeWhile_stop (t := is ++ [f] ++ t) hps (f := i) (by simp [isParam]; omega)
    simpa using this

theorem Tok.Ok.csi_inters {ps is : Text} {f : Nat} (h : (Tok.csi ps is f).Ok) (t : Text) :
    (is ++ [f] ++ t).takeWhile isInter = is ∧ (is ++ [f] ++ t).dropWhile isInter = f :: t := by
  obtain ⟨h1, h2, h3, h4⟩ := h
  have hps : ∀ c ∈ is, isInter c = true := fun c hc => by have := h2 c hc; simp [isInter]; omega
  have := takeWhile_stop (t := t) hps (f := f) (by simp [isInter]; omega)
  simpa using this

theorem stripGo_skip (u t : Text) : stripGo u.length (u ++ t) = stripGo 0 t := by
  induction u with
  | nil => rfl
  | cons c u ih => rw [List.length_cons, List.cons_append, stripGo]; exact ih

/-- A character is kept and a code is removed. -/
theorem stripGo_tok {k : Tok} (h : k.Ok) (t : Text) : stripGo 0 (k.text ++ t) = k.seen ++ stripGo 0 t := by
  cases k with
  | char c => rw [Tok.text, Tok.seen, List.cons_append, stripGo, if_neg h]; rfl
  | short c =>
    obtain ⟨h1, h2, h3⟩ := h
    have : isFe c = true := by simp [isFe]; omega
    simp only [Tok.text, Tok.seen]
    rw [List.cons_append, List.cons_append, stripGo, if_pos rfl]
    simp only [escLen, this, if_true]
    exact stripGo_skip [c] t
  | csi ps is f =>
    have hp := h.csi_params t
    have hi := h.csi_inters t
    have hf : isFinal f = true := by
      obtain ⟨-, -, h3, h4⟩ := h
      simp [isFinal]; omega
    simp only [Tok.text, Tok.seen]
    rw [List.cons_append, List.cons_append, stripGo, if_pos rfl]
    have : escLen (91 :: (ps ++ is ++ [f] ++ t)) = some (ps.length + is.length + 2) := by
      simp only [escLen, hp.1, hp.2, hi.1, hi.2, hf, show isFe 91 = false by decide]
      simp
    rw [this]
    show stripGo _ (91 :: (ps ++ is ++ [f] ++ t)) = _
    have hs := stripGo_skip (91 :: (ps ++ is ++ [f])) t
    simp only [List.length_cons, List.length_append, List.length_nil] at hs
    simpa [Nat.add_assoc] using hs

theorem stripGo_toks {ts : List Tok} (h : ∀ k ∈ ts, k.Ok) (t : Text) :
    stripGo 0 (ts.flatMap Tok.text ++ t) = ts.flatMap Tok.seen ++ stripGo 0 t := by
  induction ts with
  | nil => rfl
  | cons k ts ih =>
    rw [List.flatMap_cons, List.append_assoc, stripGo_tok (h k (by simp)), ih fun k hk => h k (by simp [hk]),
      List.flatMap_cons, List.append_assoc]

/-- Stripping gives what is seen. -/
theorem Shows.strip {t v : Text} (h : Shows t v) : stripAnsi t = v := by
  obtain ⟨ts, hts, rfl, rfl⟩ := h
  have := stripGo_toks hts []
  simpa [stripAnsi, stripGo] using this

/-! ## Texts for a terminal -/

theorem Shows.nil : Shows [] [] := ⟨[], by simp, rfl, rfl⟩

theorem Shows.append {a b v w : Text} (h : Shows a v) (h' : Shows b w) : Shows (a ++ b) (v ++ w) := by
  obtain ⟨ts, hts, rfl, rfl⟩ := h
  obtain ⟨ts', hts', rfl, rfl⟩ := h'
  refine ⟨ts ++ ts', ?_, by simp, by simp⟩
  intro k hk
  rcases List.mem_append.mp hk with hk | hk
  · exact hts k hk
  · exact hts' k hk

/-- A text without ESC is shown as it is. -/
theorem Shows.plain {t : Text} (h : 27 ∉ t) : Shows t t := by
  refine ⟨t.map .char, ?_, ?_, ?_⟩
  · intro k hk
    obtain ⟨c, hc, rfl⟩ := List.mem_map.mp hk
    exact fun e => h (e ▸ hc)
  · induction t with
    | nil => rfl
    | cons c t ih => simp [Tok.text]; simpa using ih (by simp at h; exact h.2)
  · induction t with
    | nil => rfl
    | cons c t ih => simp [Tok.seen]; simpa using ih (by simp at h; exact h.2)

theorem Shows.sgr {a b : Nat} (ha : 48 ≤ a ∧ a ≤ 63) (hb : 48 ≤ b ∧ b ≤ 63) : Shows (Log.sgr a b) [] :=
  ⟨[.csi [a, b] [] 109], by simp [Tok.Ok]; omega, by simp [Tok.text, Log.sgr], by simp [Tok.seen]⟩

theorem Shows.ansiDefault : Shows ansiDefault [] :=
  (Shows.sgr (by omega) (by omega)).append (Shows.sgr (by omega) (by omega))

theorem Shows.levelColour (l : Nat) : Shows (levelColour l) [] := by
  unfold Log.levelColour
  split
  · exact Shows.sgr (by omega) (by omega)
  · split
    · exact Shows.sgr (by omega) (by omega)
    · split
      · exact (Shows.sgr (by omega) (by omega)).append (Shows.sgr (by omega) (by omega))
      · exact Shows.nil

/-- Texts for a terminal can be read in one way only. -/
theorem Tok.inj {k k' : Tok} (h : k.Ok) (h' : k'.Ok) {a b : Text} (e : k.text ++ a = k'.text ++ b) : k = k' ∧ a = b := by
  cases k with
  | char c =>
    cases k' with
    | char c' => simpa [Tok.text] using e
    | short c' => simp [Tok.text] at e; exact absurd e.1 h
    | csi ps is f => simp [Tok.text] at e; exact absurd e.1 h
  | short c =>
    cases k' with
    | char c' => simp [Tok.text] at e; exact absurd e.1.symm h'
    | short c' => simpa [Tok.text] using e
    | csi ps is f => simp [Tok.text] at e; exact absurd e.1 h.2.2
  | csi ps is f =>
    cases k' with
    | char c' => simp [Tok.text] at e; exact absurd e.1.symm h'
    | short c' => simp [Tok.text] at e; exact absurd e.1.symm h'.2.2
    | csi ps' is' f' =>
      have e : ps ++ is ++ [f] ++ a = ps' ++ is' ++ [f'] ++ b := by simpa [Tok.text] using e
      have p1 := h.csi_params a
      have p2 := h'.csi_params b
      rw [e] at p1
      obtain rfl : ps = ps' := p1.1.symm.trans p2.1
      have e : is ++ [f] ++ a = is' ++ [f'] ++ b := p1.2.symm.trans p2.2
      have i1 := h.csi_inters a
      have i2 := h'.csi_inters b
      rw [e] at i1
      obtain rfl : is = is' := i1.1.symm.trans i2.1
      have e := i1.2.symm.trans i2.2
      simp only [List.cons.injEq] at e
      obtain ⟨rfl, rfl⟩ := e
      exact ⟨rfl, rfl⟩

theorem replaceGo_skip (old new u t : Text) : replaceGo old new u.length (u ++ t) = replaceGo old new 0 t := by
  induction u with
  | nil => rfl
  | cons c u ih => rw [List.length_cons, List.cons_append, replaceGo]; exact ih

theorem replaceGo_free {x : Nat} {old new u : Text} (h : x ∉ u) (t : Text) :
    replaceGo (x :: old) new 0 (u ++ t) = u ++ replaceGo (x :: old) new 0 t := by
  induction u with
  | nil => rfl
  | cons c u ih =>
    have hc : x ≠ c := fun e => h (by simp [e])
    have : (x :: old).isPrefixOf (c :: (u ++ t)) = false := by simp [List.isPrefixOf, hc]
    rw [List.cons_append, replaceGo, this]
    simp [ih fun hx => h (by simp [hx])]

/-- Only the first character of a code is ESC. -/
theorem Tok.Ok.text_tail {k : Tok} (h : k.Ok) : ∃ c u, k.text = c :: u ∧ 27 ∉ u := by
  cases k with
  | char c => exact ⟨c, [], rfl, by simp⟩
  | short c => exact ⟨27, [c], rfl, by simp [Tok.Ok] at h ⊢; omega⟩
  | csi ps is f =>
    refine ⟨27, _, rfl, ?_⟩
    obtain ⟨h1, h2, h3, h4⟩ := h
    intro hm
    simp only [List.mem_cons, List.mem_append, List.not_mem_nil, or_false] at hm
    rcases hm with hm | (hm | hm) | hm
    · omega
    · have := h1 _ hm; omega
    · have := h2 _ hm; omega
    · omega

/-- Other colours in place of the default do not change what is seen. -/
theorem Shows.replace {t v new : Text} (h : Shows t v) (hn : Shows new []) : Shows (replaceText Log.ansiDefault new t) v := by
  obtain ⟨ts, hts, rfl, rfl⟩ := h
  unfold replaceText
  induction hl : ts.length using Nat.strongRecOn generalizing ts with
  | _ n ih =>
    cases ts with
    | nil => exact Shows.nil
    | cons k ts =>
      have hk := hts k (by simp)
      have hts' : ∀ k ∈ ts, k.Ok := fun k hk => hts k (by simp [hk])
      obtain ⟨c, u, hu, h27⟩ := hk.text_tail
      by_cases hp : Log.ansiDefault.isPrefixOf ((k :: ts).flatMap Tok.text) = true
      · obtain ⟨rest, hr⟩ := List.isPrefixOf_iff_prefix.mp hp
        have hk1 : (Tok.csi [52, 57] [] 109).Ok := by simp [Tok.Ok]
        have hk2 : (Tok.csi [51, 57] [] 109).Ok := by simp [Tok.Ok]
        have e1 : (Tok.csi [52, 57] [] 109).text ++ ((Tok.csi [51, 57] [] 109).text ++ rest) = k.text ++ ts.flatMap Tok.text := by
          rw [List.flatMap_cons] at hr
          rw [← hr]; rfl
        obtain ⟨rfl, e2⟩ := Tok.inj hk1 hk e1
        cases ts with
        | nil => simp [Tok.text] at e2
        | cons k' ts =>
          rw [List.flatMap_cons] at e2
          obtain ⟨rfl, rfl⟩ := Tok.inj hk2 (hts' k' (by simp)) e2
          have i := ih ts.length (by simp at hl; omega) ts (fun k hk => hts' k (by simp [hk])) rfl
          have hs := replaceGo_skip Log.ansiDefault new (Log.ansiDefault.drop 1) (ts.flatMap Tok.text)
          have : replaceGo Log.ansiDefault new 0 ((Tok.csi [52, 57] [] 109 :: Tok.csi [51, 57] [] 109 :: ts).flatMap Tok.text) =
              new ++ replaceGo Log.ansiDefault new 0 (ts.flatMap Tok.text) := by
            rw [← hs]
            conv => lhs; rw [show (Tok.csi [52, 57] [] 109 :: Tok.csi [51, 57] [] 109 :: ts).flatMap Tok.text =
              27 :: (Log.ansiDefault.drop 1 ++ ts.flatMap Tok.text) from rfl]
            rw [replaceGo, if_pos (by exact hp)]
            rfl
          rw [this]
          exact hn.append i
      · have i := ih ts.length (by simp at hl; omega) ts hts' rfl
        have : replaceGo Log.ansiDefault new 0 ((k :: ts).flatMap Tok.text) =
            k.text ++ replaceGo Log.ansiDefault new 0 (ts.flatMap Tok.text) := by
          rw [List.flatMap_cons, hu] at hp ⊢
          rw [List.cons_append] at hp ⊢
          rw [replaceGo, if_neg hp]
          rw [show Log.ansiDefault = 27 :: Log.ansiDefault.drop 1 from rfl, replaceGo_free h27]
          rfl
        rw [this, List.flatMap_cons]
        exact Shows.append ⟨[k], by simpa using hk, by simp, by simp⟩ i

/-! ## Lines -/

/-- A line feed with an indentation. -/
def layout (sp : Text) (c : Nat) : Text := if c = 10 then 10 :: sp else [c]

theorem splitGo_ne_nil {cur t : Text} (h : cur ≠ [] ∨ t ≠ []) : splitGo cur t ≠ [] := by
  fun_induction splitGo cur t with
  | case1 => simp_all
  | case2 => simp_all
  | case3 => simp
  | case4 => simp
  | case5 cur c t h1 h2 ih => exact ih (.inl (by simp))

theorem joinText_cons (sep a : Text) {l : List Text} (h : l ≠ []) : joinText sep (a :: l) = a ++ sep ++ joinText sep l := by
  cases l with
  | nil => exact absurd rfl h
  | cons b l => rfl

theorem joinText_cons2 (sep a b : Text) (l : List Text) :
    joinText sep (a :: b :: l) = a ++ sep ++ joinText sep (b :: l) := rfl

/-- Splitting and joining replaces the ends of lines. -/
theorem join_splitGo {sp cur t : Text} (h : PlainLines t) (hl : t.getLast? ≠ some 10) :
    joinText (10 :: sp) (splitGo cur t) = cur ++ t.flatMap (layout sp) := by
  induction t generalizing cur with
  | nil =>
    rw [splitGo]
    split
    · next e => simp [e, joinText]
    · simp [joinText]
  | cons c t ih =>
    have ht : PlainLines t := fun x hx => h x (by simp [hx])
    have hl' : t.getLast? ≠ some 10 := by
      intro hx
      apply hl
      cases t with
      | nil => cases hx
      | cons d t => rw [List.getLast?_cons_cons]; exact hx
    have hc : c ≠ 13 := fun e => by
      have := h c (by simp) (by subst e; decide)
      omega
    rw [splitGo.eq_3 _ _ _ (by intro t' e; exact absurd e hc)]
    by_cases hb : isBreak c = true
    · obtain rfl := h c (by simp) hb
      have hne : t ≠ [] := by
        intro e
        subst e
        exact hl rfl
      rw [if_pos hb, joinText_cons _ _ (splitGo_ne_nil (.inr hne)), ih ht hl']
      simp [layout]
    · have : c ≠ 10 := fun e => hb (by subst e; decide)
      rw [if_neg hb, ih ht hl']
      simp [layout, this]

theorem join_splitlines {sp t : Text} (h : PlainLines t) (hl : t.getLast? ≠ some 10) :
    joinText (10 :: sp) (splitlines t) = t.flatMap (layout sp) := by
  rw [splitlines, join_splitGo h hl]; rfl

/-- Codes contain no line ends. -/
theorem Tok.Ok.code_break {k : Tok} (h : k.Ok) {c : Nat} (hc : c ∈ k.text) (hb : isBreak c = true) : k.seen = [c] ∧ k.text = [c] := by
  have hb' : c = 10 ∨ c = 11 ∨ c = 12 ∨ c = 13 ∨ c = 28 ∨ c = 29 ∨ c = 30 ∨ c = 133 ∨ c = 8232 ∨ c = 8233 := by
    simpa [isBreak] using hb
  cases k with
  | char d => simp [Tok.text] at hc; simp [Tok.seen, Tok.text, hc]
  | short d => simp [Tok.text, Tok.Ok] at hc h; omega
  | csi ps is f =>
    obtain ⟨h1, h2, h3, h4⟩ := h
    simp only [Tok.text, List.mem_cons, List.mem_append, List.not_mem_nil, or_false] at hc
    rcases hc with hc | hc | (hc | hc) | hc
    · omega
    · omega
    · have := h1 _ hc; omega
    · have := h2 _ hc; omega
    · omega

theorem Shows.plainLines {t v : Text} (h : Shows t v) (hv : PlainLines v) : PlainLines t := by
  obtain ⟨ts, hts, rfl, rfl⟩ := h
  intro c hc hb
  obtain ⟨k, hk, hc⟩ := List.mem_flatMap.mp hc
  refine hv c (List.mem_flatMap.mpr ⟨k, hk, ?_⟩) hb
  rw [((hts k hk).code_break hc hb).1]
  simp

theorem Shows.layout {t v sp : Text} (h : Shows t v) (hs : 27 ∉ sp) : Shows (t.flatMap (Log.layout sp)) (v.flatMap (Log.layout sp)) := by
  obtain ⟨ts, hts, rfl, rfl⟩ := h
  induction ts with
  | nil => exact Shows.nil
  | cons k ts ih =>
    have ih := ih fun k hk => hts k (by simp [hk])
    have hk := hts k (by simp)
    simp only [List.flatMap_cons, List.flatMap_append]
    refine Shows.append ?_ ih
    by_cases h10 : 10 ∈ k.text
    · have := hk.code_break h10 (by decide)
      rw [this.1, this.2]
      exact Shows.plain (by simp [Log.layout, hs])
    · have e : k.text.flatMap (Log.layout sp) = k.text := by
        generalize k.text = u at h10
        induction u with
        | nil => rfl
        | cons c u ih =>
          have hc : c ≠ 10 := fun e => h10 (by simp [e])
          rw [List.flatMap_cons, ih fun hx => h10 (by simp [hx]), Log.layout, if_neg hc]
          rfl
      rw [e]
      cases k with
      | char c => 
        have hc : c ≠ 10 := fun e => h10 (by simp [Tok.text, e])
        simp only [Tok.text, Tok.seen, List.flatMap_cons, List.flatMap_nil, List.append_nil, Log.layout, if_neg hc]
        exact Shows.plain (by simpa using Ne.symm hk)
      | short c => exact ⟨[.short c], by simpa using hk, by simp, rfl⟩
      | csi ps is f => exact ⟨[.csi ps is f], by simpa using hk, by simp, rfl⟩

end Verif.Log
