import Verif.Spec.Runner
/-!
# Lemmas: the pattern for names of tests
-/
namespace Verif.Runner
open Re

theorem matchSeq {a b : Re} {s t : Text} : Match (.seq a b) s t ↔ ∃ u, Match a s u ∧ Match b u t := by
  constructor
  · intro h; cases h with | seq h1 h2 => exact ⟨_, h1, h2⟩
  · rintro ⟨u, h1, h2⟩; exact .seq h1 h2

theorem matchAlt {a b : Re} {s t : Text} : Match (.alt a b) s t ↔ Match a s t ∨ Match b s t := by
  constructor
  · intro h; cases h with | altLeft h => exact .inl h | altRight h => exact .inr h
  · rintro (h | h)
    · exact .altLeft h
    · exact .altRight h

theorem matchEps {s t : Text} : Match .eps s t ↔ s = t := by
  constructor
  · intro h; cases h; rfl
  · rintro rfl; exact .eps

theorem matchChar {c : Nat} {s t : Text} : Match (.char c) s t ↔ s = c :: t := by
  constructor
  · intro h; cases h; rfl
  · rintro rfl; exact .char

theorem matchEos {s t : Text} : Match .eos s t ↔ s = t ∧ (s = [] ∨ s = [10]) := by
  constructor
  · intro h; cases h <;> simp
  · rintro ⟨rfl, rfl | rfl⟩
    · exact .eosEnd
    · exact .eosNewline

theorem matchAnyStar {s t : Text} : Match (.star .any) s t ↔ ∃ b, s = b ++ t ∧ 10 ∉ b := by
  constructor
  · intro h
    generalize e : Re.star .any = r at h
    induction h with
    | starNil => exact ⟨[], rfl, by simp⟩
    | starCons h1 h2 _ ih =>
      cases e
      obtain ⟨b, rfl, hb⟩ := ih rfl
      cases h1 with
      | any hc => exact ⟨_ :: b, rfl, by simp [hb]; omega⟩
    | _ => cases e
  · rintro ⟨b, rfl, hb⟩
    induction b with
    | nil => exact .starNil
    | cons c b ih =>
      simp at hb
      exact .starCons (.any (by omega)) (ih hb.2)

theorem reSeq_snoc (l : List Re) (x : Re) : reSeq (l ++ [x]) = .seq x (reSeq l) := by
  unfold reSeq; rw [List.foldl_append]; rfl

theorem matchChars {n s t : Text} : Match (reSeq (n.map Re.char).reverse) s t ↔ s = n ++ t := by
  induction n generalizing s with
  | nil => exact matchEps
  | cons c n ih =>
    rw [List.map_cons, List.reverse_cons, reSeq_snoc, matchSeq]
    simp only [matchChar, ih]
    constructor
    · rintro ⟨u, rfl, rfl⟩; rfl
    · rintro rfl; exact ⟨_, rfl, rfl⟩

/-- The items of `.*name`, last first. -/
def nameItems (n : Text) : List Re := (n.map Re.char).reverse ++ [.star .any]

theorem matchName {n s t : Text} : Match (reSeq (nameItems n)) s t ↔ ∃ b, s = b ++ n ++ t ∧ 10 ∉ b := by
  unfold nameItems
  rw [reSeq_snoc, matchSeq]
  simp only [matchAnyStar, matchChars]
  constructor
  · rintro ⟨u, ⟨b, rfl, hb⟩, rfl⟩; exact ⟨b, by simp, hb⟩
  · rintro ⟨b, rfl, hb⟩; exact ⟨_, ⟨b, by simp, hb⟩, rfl⟩

theorem special_not_alnum : ∀ c ∈ reSpecial, isAsciiAlnum c = false := by decide

theorem special_mem : ∀ c ∈ [92, 40, 41, 124, 42, 46, 36, 91, 94, 63, 43, 123], c ∈ reSpecial := by decide

theorem parse_char (st : List ReFrame) (f : ReFrame) (c : Nat) (r : Text) :
    reParseGo st f ((if c ∈ reSpecial then [92, c] else [c]) ++ r) = reParseGo st (f.push (.char c)) r := by
  split
  · rename_i h
    simp only [List.cons_append, List.nil_append]
    rw [reParseGo.eq_def]
    simp [special_not_alnum c h]
  · rename_i h
    have hn : ∀ d ∈ [92, 40, 41, 124, 42, 46, 36, 91, 94, 63, 43, 123], c ≠ d :=
      fun d hd e => h (e ▸ special_mem d hd)
    simp only [List.mem_cons, List.not_mem_nil, or_false, forall_eq_or_imp, forall_eq] at hn
    simp only [List.cons_append, List.nil_append]
    rw [reParseGo.eq_def]
    simp [hn]

theorem parse_escape (st : List ReFrame) (f : ReFrame) (n r : Text) :
    reParseGo st f (reEscape n ++ r) = reParseGo st { f with items := (n.map Re.char).reverse ++ f.items } r := by
  induction n generalizing f with
  | nil => rfl
  | cons c n ih =>
    unfold reEscape at ih ⊢
    rw [List.flatMap_cons, List.append_assoc, parse_char, ih]
    simp [ReFrame.push]

theorem parse_name (st : List ReFrame) (a : Option Re) (n r : Text) :
    reParseGo st ⟨a, []⟩ (lit ".*" ++ reEscape n ++ r) = reParseGo st ⟨a, nameItems n⟩ r := by
  have hl : lit ".*" = [46, 42] := by decide
  rw [hl, List.append_assoc]
  simp only [List.cons_append, List.nil_append]
  have h1 : ∀ cs, reParseGo st ⟨a, []⟩ (46 :: cs) = reParseGo st ⟨a, [.any]⟩ cs := by
    intro cs; rw [reParseGo.eq_def]; simp [ReFrame.push]
  have h2 : ∀ cs, reParseGo st ⟨a, [.any]⟩ (42 :: cs) = reParseGo st ⟨a, [.star .any]⟩ cs := by
    intro cs; rw [reParseGo.eq_def]; simp
  rw [h1, h2, parse_escape]
  rfl

/-- What the alternatives for some names are parsed to. -/
def namesRe : Option Re → Text → List Text → Re
  | a, n, [] => (ReFrame.mk a (nameItems n)).close
  | a, n, m :: ms => namesRe (some (ReFrame.mk a (nameItems n)).close) m ms

theorem parse_names (g : ReFrame) (st : List ReFrame) (a : Option Re) (n : Text) (ns : List Text) (r : Text) :
    reParseGo (g :: st) ⟨a, []⟩ (joinText [124] ((n :: ns).map fun n => lit ".*" ++ reEscape n) ++ 41 :: r) =
      reParseGo st (g.push (namesRe a n ns)) r := by
  induction ns generalizing a n with
  | nil =>
    simp only [List.map_cons, List.map_nil, joinText]
    rw [parse_name, reParseGo.eq_def]
    simp [namesRe]
  | cons m ms ih =>
    rw [List.map_cons, List.map_cons, joinText]
    · rw [List.append_assoc, List.append_assoc, parse_name]
      simp only [List.cons_append, List.nil_append]
      rw [reParseGo.eq_def]
      simp only [Nat.reduceEqDiff, if_false, if_true]
      have := ih (some (ReFrame.mk a (nameItems n)).close) m
      rw [List.map_cons] at this
      rw [this]
      rfl
    · simp

theorem matchNames {s t : Text} (a : Option Re) (n : Text) (ns : List Text) :
    Match (namesRe a n ns) s t ↔ (∃ r, a = some r ∧ Match r s t) ∨ ∃ m ∈ n :: ns, Match (reSeq (nameItems m)) s t := by
  induction ns generalizing a n with
  | nil =>
    cases a with
    | none => simp [namesRe, ReFrame.close]
    | some r => simp [namesRe, ReFrame.close, matchAlt]
  | cons m ms ih =>
    rw [namesRe, ih]
    cases a with
    | none => simp [ReFrame.close]
    | some r => simp [ReFrame.close, matchAlt, or_assoc]

/-- The pattern with the group `g`. -/
def wholeRe (g : Re) : Re := reSeq [.eos, g, .char 46]

theorem parse_regex (names : List Text) :
    ∃ g, reParse (testcaseRegex names) = some (wholeRe g) ∧
      ∀ s t, Match g s t ↔ (names = [] ∧ s = t) ∨ ∃ n ∈ names, ∃ b, s = b ++ n ++ t ∧ 10 ∉ b := by
  have h1 : lit "\\.(" = [92, 46, 40] := by decide
  have h2 : lit ")$" = [41, 36] := by decide
  have h3 : isAsciiAlnum 46 = false := by decide
  have h4 : lit ".*" = [46, 42] := by decide
  unfold reParse testcaseRegex
  rw [h1, h2, List.append_assoc]
  simp only [List.cons_append, List.nil_append]
  cases names with
  | nil => exact ⟨.eps, by decide, by simp [matchEps]⟩
  | cons n ns =>
    refine ⟨namesRe none n ns, ?_, fun s t => by simp [matchNames, matchName]⟩
    rw [reParseGo.eq_def]
    simp only [h3, Bool.false_eq_true, if_false]
    rw [reParseGo.eq_def]
    have hh : (joinText [124] ((n :: ns).map fun n => lit ".*" ++ reEscape n) ++ [41, 36]).head? = some 46 := by
      rw [h4]
      cases ns <;> rfl
    simp only [if_true, hh]
    rw [if_neg (by decide)]
    rw [parse_names, reParseGo.eq_def]
    simp [reParseGo, ReFrame.push, ReFrame.close, wholeRe]

/-- When the pattern for some names finds a match. -/
theorem search_regex (names : List Text) (full : Text) :
    (∃ r, reParse (testcaseRegex names) = some r ∧ r.Search full) ↔
      (names = [] ∧ ∃ a e, full = a ++ 46 :: e ∧ (e = [] ∨ e = [10])) ∨
        ∃ n ∈ names, ∃ a b e, full = a ++ 46 :: (b ++ n ++ e) ∧ 10 ∉ b ∧ (e = [] ∨ e = [10]) := by
  obtain ⟨g, hp, hg⟩ := parse_regex names
  rw [hp]
  have : (∃ r, some (wholeRe g) = some r ∧ r.Search full) ↔ (wholeRe g).Search full := by simp
  rw [this]
  unfold Re.Search wholeRe
  simp only [reSeq, List.foldl_cons, List.foldl_nil, matchSeq, matchChar, matchEos, matchEps, hg]
  constructor
  · rintro ⟨pre, suf, t, rfl, u, rfl, v, hm, w, ⟨rfl, he⟩, rfl⟩
    rcases hm with ⟨rfl, rfl⟩ | ⟨n, hn, b, rfl, hb⟩
    · exact .inl ⟨rfl, _, _, rfl, he⟩
    · exact .inr ⟨n, hn, _, b, _, rfl, hb, he⟩
  · rintro (⟨rfl, a, e, rfl, he⟩ | ⟨n, hn, a, b, e, rfl, hb, he⟩)
    · exact ⟨a, _, e, rfl, _, rfl, e, .inl ⟨rfl, rfl⟩, e, ⟨rfl, he⟩, rfl⟩
    · exact ⟨a, _, e, rfl, _, rfl, e, .inr ⟨n, hn, b, rfl, hb⟩, e, ⟨rfl, he⟩, rfl⟩

end Verif.Runner
