import Verif.Spec.PytestSelect
import Verif.Props.Env
/-!
# C180: choosing cocotb tests with `-k` and `-m`
-/
namespace Verif

open PytestSelect Spec.PytestSelect

namespace PytestSelectL

theorem part_iff (names : List Text) (w : Text) : part names w = true ↔ PartOf names w := by
  simp only [part, List.any_eq_true, decide_eq_true_eq, PartOf]
  constructor
  · rintro ⟨n, hn, a, b, h⟩; exact ⟨n, hn, a, b, h.symm⟩
  · rintro ⟨n, hn, a, b, h⟩; exact ⟨n, hn, a, b, h.symm⟩

theorem partOf_append (a b : List Text) (w : Text) : PartOf (a ++ b) w ↔ PartOf a w ∨ PartOf b w := by
  simp only [PartOf, List.mem_append]
  constructor
  · rintro ⟨n, h | h, x⟩
    · exact Or.inl ⟨n, h, x⟩
    · exact Or.inr ⟨n, h, x⟩
  · rintro (⟨n, h, x⟩ | ⟨n, h, x⟩)
    · exact ⟨n, Or.inl h, x⟩
    · exact ⟨n, Or.inr h, x⟩

theorem partOf_infix (names : List Text) (w : Text) : PartOf names w ↔ ∃ n ∈ names, w <:+: n := by
  simp only [PartOf, List.IsInfix]
  constructor
  · rintro ⟨n, hn, a, b, h⟩; exact ⟨n, hn, a, b, h.symm⟩
  · rintro ⟨n, hn, a, b, h⟩; exact ⟨n, hn, a, b, h.symm⟩

/-- A word without the separator lies on one side of it. -/
theorem infix_sep {w : Text} {s : Nat} (hs : s ∉ w) (hw : w ≠ []) : ∀ (a b : Text), w <:+: a ++ s :: b ↔ w <:+: a ∨ w <:+: b
  | [], b => by
    rw [List.nil_append, List.infix_cons_iff, List.prefix_cons_iff]
    constructor
    · rintro ((h | ⟨t, h, _⟩) | h)
      · exact absurd h hw
      · exact absurd (h ▸ List.mem_cons_self) hs
      · exact Or.inr h
    · rintro (h | h)
      · exact absurd (List.infix_nil.1 h) hw
      · exact Or.inr h
  | c :: a, b => by
    have hp : ∀ (a : Text) {w : Text}, s ∉ w → (w <+: a ++ s :: b ↔ w <+: a) := by
      intro a
      induction a with
      | nil =>
        intro w hs
        rw [List.nil_append, List.prefix_cons_iff, List.prefix_nil]
        constructor
        · rintro (h | ⟨t, h, _⟩)
          · exact h
          · exact absurd (h ▸ List.mem_cons_self) hs
        · exact Or.inl
      | cons d a ih =>
        intro w hs
        cases w with
        | nil => simp
        | cons x w =>
          rw [List.cons_append, List.cons_prefix_cons, List.cons_prefix_cons, ih (fun h => hs (List.mem_cons_of_mem _ h))]
    rw [List.cons_append, List.infix_cons_iff, List.infix_cons_iff, infix_sep hs hw a b, ← List.cons_append, hp (c :: a) hs]
    constructor
    · rintro (h | h | h)
      · exact Or.inl (Or.inl h)
      · exact Or.inl (Or.inr h)
      · exact Or.inr h
    · rintro ((h | h) | h)
      · exact Or.inl h
      · exact Or.inr (Or.inl h)
      · exact Or.inr (Or.inr h)

theorem infix_join {w : Text} {s : Nat} (hs : s ∉ w) (hw : w ≠ []) : ∀ (fs : List Text),
    w <:+: (fs.intersperse [s]).flatten ↔ PartOf fs w
  | [] => by
    rw [partOf_infix]
    simp [hw]
  | [f] => by
    rw [partOf_infix]
    simp
  | f :: g :: fs => by
    have e : ((f :: g :: fs).intersperse [s]).flatten = f ++ s :: ((g :: fs).intersperse [s]).flatten := by
      simp [List.intersperse]
    rw [e, infix_sep hs hw, infix_join hs hw (g :: fs), partOf_infix, partOf_infix]
    simp

theorem infix_dropWhile {w : Text} (hb : ∀ c ∈ w, isBlank c = false) (hw : w ≠ []) : ∀ t : Text,
    w <:+: t.dropWhile isBlank ↔ w <:+: t
  | [] => by simp
  | c :: t => by
    rw [List.dropWhile_cons]
    split
    · rename_i h
      rw [infix_dropWhile hb hw t, List.infix_cons_iff, List.prefix_cons_iff]
      constructor
      · exact Or.inr
      · rintro ((h' | ⟨u, h', _⟩) | h')
        · exact absurd h' hw
        · have := hb c (h' ▸ List.mem_cons_self)
          rw [h] at this
          cases this
        · exact h'
    · rfl

theorem infix_strip {w : Text} (hb : ∀ c ∈ w, isBlank c = false) (hw : w ≠ []) (t : Text) : w <:+: stripText t ↔ w <:+: t := by
  unfold stripText
  rw [← List.reverse_infix, List.reverse_reverse,
    infix_dropWhile (fun c hc => hb c (List.mem_reverse.1 hc)) (fun h => hw (List.reverse_eq_nil_iff.1 h)),
    List.reverse_infix, infix_dropWhile hb hw]

/-- A word is found in what was received exactly if it is in what was sent. -/
theorem received_iff {w : Text} (h : w ≠ [] ∧ 44 ∉ w ∧ ∀ c ∈ w, isBlank c = false) (r : Runner) :
    PartOf (received r) w ↔ PartOf r.item.keywords w := by
  obtain ⟨hw, hs, hb⟩ := h
  have e : received r = ((splitGo [44] 0 (stripText (sent r))).map stripText).filter (fun x => decide (x ≠ [])) := by
    unfold received Env.getList Env.getStr
    simp only [Option.getD_some, Option.getD_none, Env.orText, splitText, List.cons_ne_self, reduceCtorEq, if_false, bind,
      Except.bind, pure, Except.pure]
    rw [show (if stripText (sent r) = [] then [] else stripText (sent r)) = stripText (sent r) by split <;> simp_all]
    split
    · simp_all
    · rfl
  have hj := (infix_join hs hw (splitGo [44] 0 (stripText (sent r)))).symm
  rw [← (Env.join_splitGo 44 (stripText (sent r))).1, infix_strip hb hw] at hj
  unfold sent at hj
  rw [infix_join hs hw] at hj
  rw [← hj, e, partOf_infix, partOf_infix]
  constructor
  · rintro ⟨n, hn, h⟩
    obtain ⟨f, hf, rfl⟩ := List.mem_map.1 (List.mem_filter.1 hn).1
    exact ⟨f, hf, (infix_strip hb hw f).1 h⟩
  · rintro ⟨f, hf, h⟩
    have h' := (infix_strip hb hw f).2 h
    refine ⟨stripText f, List.mem_filter.2 ⟨List.mem_map.2 ⟨f, hf, rfl⟩, ?_⟩, h'⟩
    simp only [ne_eq, decide_not, Bool.not_eq_true', decide_eq_false_iff_not]
    intro he
    rw [he] at h'
    exact hw (List.infix_nil.1 h')

theorem eval_iff {m : Text → Bool} {M : Text → Prop} : ∀ (e : Expr), (∀ w ∈ words e, (m w = true ↔ M w)) →
    (e.eval m = true ↔ True' M e)
  | .word w, h => h w (by simp [words])
  | .neg e, h => by
    have := eval_iff e h
    simp only [Expr.eval, True', ← this]
    simp
  | .conj a b, h => by
    have h1 := eval_iff a fun w hw => h w (List.mem_append_left _ hw)
    have h2 := eval_iff b fun w hw => h w (List.mem_append_right _ hw)
    simp [Expr.eval, True', ← h1, ← h2]
  | .disj a b, h => by
    have h1 := eval_iff a fun w hw => h w (List.mem_append_left _ hw)
    have h2 := eval_iff b fun w hw => h w (List.mem_append_right _ hw)
    simp [Expr.eval, True', ← h1, ← h2]

theorem mono {M N : Text → Prop} : ∀ (e : Expr), positive e → (∀ w ∈ words e, M w → N w) → True' M e → True' N e
  | .word w, _, h, ht => h w (by simp [words]) ht
  | .neg _, hp, _, _ => hp.elim
  | .conj a b, hp, h, ht => ⟨mono a hp.1 (fun w hw => h w (List.mem_append_left _ hw)) ht.1,
      mono b hp.2 (fun w hw => h w (List.mem_append_right _ hw)) ht.2⟩
  | .disj a b, hp, h, ht => ht.elim (fun x => Or.inl (mono a hp.1 (fun w hw => h w (List.mem_append_left _ hw)) x))
      (fun x => Or.inr (mono b hp.2 (fun w hw => h w (List.mem_append_right _ hw)) x))

/-- In the simulator a test is chosen exactly if it is wanted. -/
theorem inner_iff {e : Expr} {r : Runner} {t : Test} (U : Usual e r) (D : NoDirs e r) (ht : t ∈ r.tests) :
    e.eval (part (testNames r t)) = true ↔ WantedByName e r t := by
  refine eval_iff e fun w hw => ?_
  rw [part_iff, testNames, partOf_append, received_iff (U.syn w hw), Item.keywords, partOf_append, ← U.alike t ht w hw,
    partOf_append]
  have := (D w hw).1
  constructor
  · rintro (h | h | h)
    · exact Or.inl h
    · exact Or.inr h
    · exact absurd h this
  · rintro (h | h)
    · exact Or.inl h
    · exact Or.inr (Or.inl h)

end PytestSelectL

open PytestSelectL

/-- C180, words: exactly the wanted tests run. -/
def C180_keyword_full : Prop := ∀ (e : Expr) (r : Runner) (t : Test), Usual e r → NoDirs e r → t ∈ r.tests →
  (runs ⟨some e, none⟩ r t = true ↔ WantedByName e r t)

/-- A runner `r` with the tests `a` and `b`, in the directory `d`; `a` has the marker `m`. -/
def exSelect : Runner :=
  ⟨⟨[[114]], [[100]], []⟩, [⟨⟨[[97]], [[100]], [[109]]⟩, ⟨[[97]], [], [[109]]⟩⟩, ⟨⟨[[98]], [[100]], []⟩, ⟨[[98]], [], []⟩⟩]⟩

theorem exSelect_usual (e : Expr) (h : ∀ w ∈ words e, w ≠ [] ∧ 44 ∉ w ∧ ∀ c ∈ w, isBlank c = false) : Usual e exSelect := by
  refine ⟨h, ?_, ?_⟩
  · intro t ht w _
    simp only [exSelect, List.mem_cons, List.not_mem_nil, or_false] at ht
    rcases ht with rfl | rfl <;> rfl
  · intro t ht m
    simp only [exSelect, List.mem_cons, List.not_mem_nil, or_false] at ht
    rcases ht with rfl | rfl <;> rfl

/-- With `-k "not a"` the runner, which has the names of all its tests, is not run, and so `b` is not. -/
theorem C180_keyword_counterexample : ¬ C180_keyword_full := by
  intro H
  have hn : ∀ (names : List Text) (w : Text), PartOf names w ↔ part names w = true := fun n w => (part_iff n w).symm
  have := (H (.neg (.word [97])) exSelect ⟨⟨[[98]], [[100]], []⟩, ⟨[[98]], [], []⟩⟩ (exSelect_usual _ (by decide +kernel))
    (by simp only [NoDirs, hn]; decide +kernel) (by decide +kernel)).2 (by
      simp only [WantedByName, True', hn]; decide +kernel)
  revert this
  decide +kernel

/-- C180: no test runs that is not wanted. -/
theorem C180_keyword_sound {e : Expr} {r : Runner} {t : Test} (U : Usual e r) (D : NoDirs e r) (ht : t ∈ r.tests)
    (h : runs ⟨some e, none⟩ r t = true) : WantedByName e r t := by
  simp only [runs, chosen, Option.map_some, Option.getD_some, Option.map_none, Option.getD_none, Bool.and_true,
    Bool.and_eq_true] at h
  exact (inner_iff U D ht).1 h.2

/-- C180, partial (the full claim is false of the code): exactly the wanted tests run, if the expression has no `not`. -/
theorem C180_keyword_partial {e : Expr} {r : Runner} {t : Test} (U : Usual e r) (D : NoDirs e r) (hp : positive e)
    (ht : t ∈ r.tests) : runs ⟨some e, none⟩ r t = true ↔ WantedByName e r t := by
  refine ⟨C180_keyword_sound U D ht, fun h => ?_⟩
  simp only [runs, chosen, Option.map_some, Option.getD_some, Option.map_none, Option.getD_none, Bool.and_true,
    Bool.and_eq_true]
  refine ⟨?_, (inner_iff U D ht).2 h⟩
  rw [eval_iff (M := PartOf (runnerNames r)) e fun w _ => part_iff _ w]
  refine mono e hp (fun w _ hw => ?_) h
  rw [partOf_append] at hw
  rw [runnerNames, partOf_append]
  rcases hw with hw | hw
  · right
    obtain ⟨n, hn, x⟩ := hw
    exact ⟨n, List.mem_flatMap.2 ⟨t, ht, List.mem_append_left _ hn⟩, x⟩
  · exact Or.inl hw

/-- `-k "r and b"`, as in the documentation. -/
example : positive (.conj (.word [114]) (.word [98])) ∧ Usual (.conj (.word [114]) (.word [98])) exSelect ∧
    NoDirs (.conj (.word [114]) (.word [98])) exSelect ∧
    exSelect.tests.map (runs ⟨some (.conj (.word [114]) (.word [98])), none⟩ exSelect) = [false, true] := by
  have hn : ∀ (names : List Text) (w : Text), PartOf names w ↔ part names w = true := fun n w => (part_iff n w).symm
  refine ⟨⟨trivial, trivial⟩, exSelect_usual _ (by decide +kernel), by simp only [NoDirs, hn]; decide +kernel, by decide +kernel⟩

/-- C180: names of directories, which pytest does not look at, do not matter. -/
def C180_directory_full : Prop := ∀ (e : Expr) (r : Runner) (t : Test), Usual e r → positive e → t ∈ r.tests →
  (runs ⟨some e, none⟩ r t = true ↔ WantedByName e r t)

/-- All cocotb tests run with `-k d` if the directory of the tests is called `d`. -/
theorem C180_directory_counterexample : ¬ C180_directory_full := by
  intro H
  have hn : ∀ (names : List Text) (w : Text), PartOf names w ↔ part names w = true := fun n w => (part_iff n w).symm
  have := (H (.word [100]) exSelect ⟨⟨[[98]], [[100]], []⟩, ⟨[[98]], [], []⟩⟩ (exSelect_usual _ (by decide +kernel))
    trivial (by decide +kernel)).1 (by decide +kernel)
  simp only [WantedByName, True', hn] at this
  revert this
  decide +kernel

/-- C180, markers: exactly the tests with the wanted markers run. -/
def C180_mark_full : Prop := ∀ (e : Expr) (r : Runner) (t : Test), Usual e r → t ∈ r.tests →
  (runs ⟨none, some e⟩ r t = true ↔ WantedByMark e t)

/-- With `-m m` the test with this marker is not run, because its runner does not have it. -/
theorem C180_mark_counterexample : ¬ C180_mark_full := by
  intro H
  have := (H (.word [109]) exSelect ⟨⟨[[97]], [[100]], [[109]]⟩, ⟨[[97]], [], [[109]]⟩⟩ (exSelect_usual _ (by decide +kernel))
    (by decide +kernel)).2 (by simp [WantedByMark, True'])
  revert this
  decide +kernel

/-- C180, partial (the full claim is false of the code): they do if the expression is true of the markers of the runner, and
else none of its tests does. -/
theorem C180_mark_partial {e : Expr} {r : Runner} {t : Test} (U : Usual e r) (ht : t ∈ r.tests) :
    runs ⟨none, some e⟩ r t = true ↔ True' (· ∈ r.item.marks) e ∧ WantedByMark e t := by
  simp only [runs, chosen, Option.map_some, Option.getD_some, Option.map_none, Option.getD_none, Bool.true_and,
    Bool.and_eq_true]
  rw [eval_iff (M := (· ∈ r.item.marks)) e fun w _ => List.contains_iff_mem,
    eval_iff (M := (· ∈ t.outer.marks)) e fun w _ => List.contains_iff_mem.trans (U.marks t ht w)]
  rfl

/-- `-m "not m"`. -/
example : exSelect.tests.map (runs ⟨none, some (.neg (.word [109]))⟩ exSelect) = [false, true] := by decide +kernel

/-- C180: a test runs exactly if it runs with each of the options alone; without options all tests run. -/
theorem C180_both (k m : Option Expr) (r : Runner) (t : Test) : (runs ⟨k, m⟩ r t = true ↔
    runs ⟨k, none⟩ r t = true ∧ runs ⟨none, m⟩ r t = true) ∧ runs ⟨none, none⟩ r t = true := by
  refine ⟨?_, rfl⟩
  simp only [runs, chosen, Option.map_none, Option.getD_none, Bool.and_true, Bool.true_and, Bool.and_eq_true]
  constructor
  · rintro ⟨⟨a, b⟩, c, d⟩; exact ⟨⟨a, c⟩, b, d⟩
  · rintro ⟨⟨a, c⟩, b, d⟩; exact ⟨⟨a, b⟩, c, d⟩

example : exSelect.tests.map (runs ⟨some (.word [114]), some (.neg (.word [109]))⟩ exSelect) = [false, true] := by decide +kernel

end Verif
