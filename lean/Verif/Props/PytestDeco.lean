import Verif.Spec.PytestDeco
import Verif.Lemmas.Decorators
/-!
# C155 to C157: decorated tests under pytest
-/
namespace Verif
open Deco Reg PytestDeco PytestDecoSpec

namespace PytestDeco

theorem xfailMark_as (g : Given) : (∀ r s, Mark.xfail r s ∉ g.own) →
    xfailMark (asMarks g) = if g.expectFail || !g.expectError.isEmpty then
      some (if g.expectError.isEmpty then none else some g.expectError, true) else none := by
  intro h
  have h1 : g.own.findSome? xfailOf = none := by
    rw [List.findSome?_eq_none_iff]
    intro x hx
    cases x <;> simp [xfailOf]
    exact (h _ _ hx).elim
  have h2 : (g.options.map optMark).findSome? xfailOf = none := by
    rw [List.findSome?_eq_none_iff]
    intro x hx
    obtain ⟨o, -, rfl⟩ := List.mem_map.1 hx
    cases o <;> rfl
  unfold xfailMark asMarks
  rw [List.findSome?_append, List.findSome?_append, List.findSome?_append, List.findSome?_append, List.findSome?_append,
    List.findSome?_append, h1, h2]
  cases g.timeout <;> by_cases hs : g.stage = 0 <;> cases g.skip <;> cases g.expectFail <;> cases g.expectError <;>
    simp [hs, xfailOf]

theorem skip_as (g : Given) (h : Mark.skip ∉ g.own) : Mark.skip ∈ asMarks g ↔ g.skip = true := by
  have h2 : Mark.skip ∉ g.options.map optMark := by
    intro hx
    obtain ⟨o, -, e⟩ := List.mem_map.1 hx
    cases o <;> simp [optMark] at e
  unfold asMarks
  simp only [List.mem_append, h, h2, or_false, false_or]
  cases g.timeout <;> by_cases hs : g.stage = 0 <;> cases g.skip <;> cases g.expectFail <;> cases g.expectError <;>
    simp [hs]

theorem isinstance_classes (W : World) (e : Exc) : ∀ l : List Expect, (∀ m, Expect.matcher m ∉ l) →
    isinstanceTuple W e l = .ok (classHit W e l)
  | [], _ => rfl
  | .cls c :: l, h => by
    have ih := isinstance_classes W e l fun m hm => h m (List.mem_cons_of_mem _ hm)
    unfold isinstanceTuple
    rw [ih]
    have hc : classHit W e (.cls c :: l) = (W.isa e c || classHit W e l) := by simp [classHit]
    rw [hc]
    cases W.isa e c <;> simp
  | .matcher m :: l, h => absurd List.mem_cons_self (h m)

end PytestDeco

/-! ## C155 -/

/-- A test gets the verdict from pytest that the regression manager of cocotb gives it. -/
def C155_verdict_full : Prop :=
  ∀ (W : World), RegSpec.Sane W → ∀ (t : Reg.Test) timeout options own exc v, Neutral own → t.skip = false →
    RegSpec.Judged W t exc v → pytestOutcome W (asMarks (given t timeout options own)) exc = same v

namespace PytestDeco

/-- Exceptions for the examples: 0 is a failed assertion, 1 a ValueError, 2 ends the test with success, 3 is raised by
the manager; class 7 is ValueError; matcher 5 matches it. -/
def exWorld : World where
  isa e c := e == 1 && c == 7
  matches_ m e := m == 5 && e == 1
  isSkip e := e == 10
  isXfail e := e == 11
  isSuccess e := e == 2
  isFailure e := e == 0
  regTerminated := 3
  simFailure := 4
  initOk _ _ := true
  testcaseMode := false
  xfailInResults := false
  maxFailures := 0
  seed := 0
  sha1 _ := 0
  Rng := Unit
  seeded _ := ()

end PytestDeco

/-- `cocotb.pass_test` makes a test fail under pytest. -/
theorem C155_verdict_counterexample : ¬ C155_verdict_full := by
  intro h
  have hs : RegSpec.Sane exWorld := by
    refine ⟨?_, ?_, ?_, ?_, ?_⟩ <;> simp [exWorld, RegSpec.Ender] <;> intro e h <;> omega
  have := h exWorld hs ⟨0, [], 0, false, [], false⟩ none [] [] (some 2) .passed ⟨by simp, by simp⟩ rfl
    (.inr ⟨2, rfl, rfl⟩)
  revert this
  decide

/-- A test that is expected to fail (with an assertion) and raises another exception fails in cocotb and is an expected
failure in pytest. -/
theorem C155_verdict_counterexample_error :
    let t : Reg.Test := ⟨0, [], 0, false, [], true⟩
    RegSpec.Judged exWorld t (some 1) .failed ∧
      pytestOutcome exWorld (asMarks (given t none [] [])) (some 1) = .xfailed := by
  refine ⟨.inr ⟨1, rfl, by simp [RegSpec.Ender, exWorld], by simp [RegSpec.Expected], by simp [exWorld]⟩, by decide⟩

/-- A test with a matcher in `expect_error` that matches is an expected failure in cocotb and ends the session in
pytest. -/
theorem C155_verdict_counterexample_matcher :
    let t : Reg.Test := ⟨0, [], 0, false, [.matcher 5], false⟩
    RegSpec.Judged exWorld t (some 1) .xfailed ∧
      pytestOutcome exWorld (asMarks (given t none [] [])) (some 1) = .crash := by
  refine ⟨⟨1, rfl, .inr ⟨by simp [RegSpec.Ender, exWorld], .inl (.inr ⟨5, by simp, rfl⟩)⟩⟩, by decide⟩

/-- **C155** A test gets the verdict from pytest that the regression manager of cocotb gives it. Missing: tests ended by
`pass_test`, tests expected to fail that raise an exception which is no failure, and matchers in `expect_error`. -/
theorem C155_verdict_partial (W : World) (hW : RegSpec.Sane W) (t : Reg.Test) (timeout : Option Nat) (options : List Opt)
    (own : List Mark) (exc : Option Exc) (v : RegSpec.Verdict) (hown : Neutral own) (hskip : t.skip = false)
    (hv : RegSpec.Judged W t exc v) (h1 : ∀ e, exc = some e → W.isSuccess e = false)
    (h2 : t.expectError = [] → t.expectFail = true → ∀ e, exc = some e → ¬ RegSpec.Ender W e → W.isFailure e = true)
    (h3 : ∀ m, Expect.matcher m ∉ t.expectError) :
    pytestOutcome W (asMarks (given t timeout options own)) exc = same v := by
  have hs : Mark.skip ∉ asMarks (given t timeout options own) := by
    rw [skip_as _ hown.1]; simp [given, hskip]
  have hx := xfailMark_as (given t timeout options own) hown.2
  simp only [given] at hx
  unfold pytestOutcome
  rw [if_neg hs]
  have hE : ∀ e, RegSpec.Expected W t e ↔ classHit W e t.expectError = true := by
    intro e
    unfold RegSpec.Expected classHit
    rw [List.any_eq_true]
    constructor
    · rintro (⟨c, hc, h⟩ | ⟨m, hm, -⟩)
      · exact ⟨_, hc, h⟩
      · exact absurd hm (h3 m)
    · rintro ⟨x, hx, h⟩
      cases x with
      | cls c => exact .inl ⟨c, hx, h⟩
      | matcher m => exact absurd hx (h3 m)
  cases exc with
  | none =>
    simp only [given, hx]
    cases v with
    | passed =>
      rcases hv with ⟨-, a, b⟩ | ⟨e, h, -⟩
      · simp [a, b, same]
      · cases h
    | failed =>
      rcases hv with ⟨-, a⟩ | ⟨e, h, -⟩
      · have : (t.expectFail || !t.expectError.isEmpty) = true := by
          rcases a with a | a
          · cases he : t.expectError with
            | nil => exact absurd he a
            | cons => simp
          · simp [a]
        simp [this, same]
      · cases h
    | skipped => obtain ⟨e, h, -⟩ := hv; cases h
    | xfailed => obtain ⟨e, h, -⟩ := hv; cases h
  | some e =>
    have hn := h1 e rfl
    simp only [given, hx]
    cases hxf : W.isXfail e with
    | true =>
      have : v = .xfailed := by
        cases v with
        | xfailed => rfl
        | passed =>
          rcases hv with ⟨h, -⟩ | ⟨e', h, h'⟩
          · cases h
          · cases h; rw [hn] at h'; cases h'
        | skipped =>
          obtain ⟨e', h, h'⟩ := hv
          cases h
          exact absurd ⟨h', hxf⟩ (hW.skip_xfail e)
        | failed =>
          rcases hv with ⟨h, -⟩ | ⟨e', h, h', -⟩
          · cases h
          · cases h; exact absurd (.inr (.inl hxf)) h'
      subst this
      simp [same]
    | false =>
      cases hsk : W.isSkip e with
      | true =>
        have : v = .skipped := by
          cases v with
          | skipped => rfl
          | passed =>
            rcases hv with ⟨h, -⟩ | ⟨e', h, h'⟩
            · cases h
            · cases h; rw [hn] at h'; cases h'
          | xfailed =>
            obtain ⟨e', h, h'⟩ := hv
            cases h
            rcases h' with h' | ⟨h', -⟩
            · rw [hxf] at h'; cases h'
            · exact absurd (.inl hsk) h'
          | failed =>
            rcases hv with ⟨h, -⟩ | ⟨e', h, h', -⟩
            · cases h
            · cases h; exact absurd (.inl hsk) h'
        subst this
        simp [same]
      | false =>
        have hne : ¬ RegSpec.Ender W e := by
          rintro (h | h | h)
          · rw [hsk] at h; cases h
          · rw [hxf] at h; cases h
          · rw [hn] at h; cases h
        simp only [Bool.false_eq_true, if_false]
        cases v with
        | passed =>
          rcases hv with ⟨h, -⟩ | ⟨e', h, h'⟩
          · cases h
          · cases h; rw [hn] at h'; cases h'
        | skipped =>
          obtain ⟨e', h, h'⟩ := hv
          cases h; rw [hsk] at h'; cases h'
        | xfailed =>
          obtain ⟨e', h, h'⟩ := hv
          cases h
          rcases h' with h' | ⟨-, h'⟩
          · rw [hxf] at h'; cases h'
          rcases h' with h' | ⟨a, b, -⟩
          · have hc := (hE e).1 h'
            have hem : t.expectError.isEmpty = false := by
              cases he : t.expectError with
              | nil => rw [he] at hc; simp [classHit] at hc
              | cons => rfl
            simp [hem, isinstance_classes W e _ h3, hc, same]
          · simp [a, b, same]
        | failed =>
          rcases hv with ⟨h, -⟩ | ⟨e', h, -, h', h''⟩
          · cases h
          · cases h
            have hc : classHit W e t.expectError = false := by
              rw [← Bool.not_eq_true, ← hE]; exact h'
            by_cases he : t.expectError = []
            · have hf : t.expectFail = false := by
                rw [← Bool.not_eq_true]
                intro hf
                exact h'' ⟨he, hf, h2 he hf e rfl hne⟩
              simp [he, hf, same]
            · have hem : t.expectError.isEmpty = false := by simpa using he
              simp [hem, isinstance_classes W e _ h3, hc, same]

example : RegSpec.Judged exWorld ⟨0, [], 0, false, [.cls 7], true⟩ (some 1) .xfailed :=
  ⟨1, rfl, .inr ⟨by simp [RegSpec.Ender, exWorld], .inl (.inl ⟨7, by simp, rfl⟩)⟩⟩

/-- **C155** A test that is to be skipped is skipped, and only such a test is skipped without being run. -/
theorem C155_skip (W : World) (t : Reg.Test) (timeout : Option Nat) (options : List Opt) (own : List Mark)
    (hown : Neutral own) :
    (t.skip = true → ∀ exc, pytestOutcome W (asMarks (given t timeout options own)) exc = .skipped) ∧
    (t.skip = false → pytestOutcome W (asMarks (given t timeout options own)) none ≠ .skipped) := by
  constructor
  · intro h exc
    unfold pytestOutcome
    rw [if_pos ((skip_as _ hown.1).2 h)]
  · intro h
    unfold pytestOutcome
    rw [if_neg (by rw [skip_as _ hown.1]; simp [given, h])]
    simp only
    split <;> simp

/-- **C155** The timeout of a test is the one given to the decorator, or else the one of the function's markers. -/
theorem C155_timeout (g : Given) :
    timeoutOf (asMarks g) = match g.timeout with | some t => some t | none => timeoutOf g.own := by
  have h2 : (g.options.map optMark).findSome? markTimeout = none := by
    rw [List.findSome?_eq_none_iff]
    intro x hx
    obtain ⟨o, -, rfl⟩ := List.mem_map.1 hx
    cases o <;> rfl
  unfold timeoutOf asMarks
  rw [List.findSome?_append, List.findSome?_append, List.findSome?_append, List.findSome?_append, List.findSome?_append,
    List.findSome?_append, h2]
  cases g.timeout <;> by_cases hs : g.stage = 0 <;> cases g.skip <;> cases g.expectFail <;> cases g.expectError <;>
    simp [hs, markTimeout]

/-! ## C156 -/

/-- pytest makes the calls that `cocotb.parametrize` describes: the tests generated by cocotb, in the same order, with
the same arguments. -/
def C156_calls_full : Prop :=
  ∀ (ident : PyStr → Bool) (g : Gen) (x : Given) (ts : List Deco.Test), x.options = g.options →
    (∀ a vs, Mark.parametrize a vs ∉ x.own) → (∀ o ∈ g.options, DecoSpec.Rectangular o) →
    DecoSpec.DistinctNames g.options → (∀ o ∈ g.options, ∀ n ∈ DecoSpec.names o, Plainly n) →
    generateTests ident g = .ok ts → pytestCalls (asMarks x) = .ok (ts.map callOf)

namespace PytestDeco

/-- A function with one option. -/
def withOption (o : Opt) : Given := ⟨none, false, [], false, 0, [o], []⟩

/-- The generator for it. -/
def genOption (o : Opt) : Gen := { Gen.new ['t'] with options := [o] }

end PytestDeco

/-- A value wrapped in `Param` reaches the test unwrapped in cocotb, wrapped in pytest. -/
theorem C156_calls_counterexample : ¬ C156_calls_full := by
  intro h
  let o : Opt := .one ['x'] [.param (.prim ['1']) (some ['a'])]
  have := h (fun _ => true) (genOption o) (withOption o) [⟨['t', '/', 'x', '=', 'a'], [(['x'], .prim ['1'])], ⟨none, false, [], false, 0⟩⟩] rfl
    (by simp [withOption]) (by simp [genOption, o, DecoSpec.Rectangular]) (by simp [genOption, o, DecoSpec.DistinctNames, DecoSpec.names])
    (by simp only [genOption, o, DecoSpec.names, Plainly]; decide) (by decide)
  revert this
  decide

/-- One name in a tuple: the test gets the row instead of its only value. -/
theorem C156_calls_counterexample_row :
    let o : Opt := .many [['x']] [[.prim ['1']]]
    (∃ ts, generateTests (fun _ => true) (genOption o) = .ok ts ∧ ts.map callOf = [⟨[(['x'], .obj (.prim ['1']))], false⟩]) ∧
    pytestCalls (asMarks (withOption o)) = .ok [⟨[(['x'], .row [.prim ['1']])], false⟩] := by
  refine ⟨⟨[⟨['t', '/', 'x', '=', '1'], [(['x'], .prim ['1'])], ⟨none, false, [], false, 0⟩⟩], by decide, by decide⟩, by decide⟩

/-- No values: cocotb generates no test, pytest one that is skipped. -/
theorem C156_calls_counterexample_empty :
    generateTests (fun _ => true) (genOption (.one ['x'] [])) = .ok [] ∧
    pytestCalls (asMarks (withOption (.one ['x'] []))) = .ok [⟨[(['x'], .notset)], true⟩] := by
  exact ⟨by decide, by decide⟩

namespace PytestDeco

theorem splitComma_plain : ∀ (n : PyStr), ',' ∉ n → splitComma n = [n]
  | [], _ => rfl
  | c :: n, h => by
    simp only [List.mem_cons, not_or] at h
    simp [splitComma, splitComma_plain n h.2, Ne.symm h.1]

theorem splitComma_append : ∀ (n s : PyStr), ',' ∉ n → splitComma (n ++ ',' :: s) = n :: splitComma s
  | [], s, _ => by simp [splitComma]
  | c :: n, s, h => by
    simp only [List.mem_cons, not_or] at h
    simp [splitComma, splitComma_append n s h.2, Ne.symm h.1]

theorem splitComma_join : ∀ ns : List PyStr, ns ≠ [] → (∀ n ∈ ns, ',' ∉ n) → splitComma (joinNames ns) = ns
  | [n], _, h => splitComma_plain n (h n List.mem_cons_self)
  | n :: m :: ns, _, h => by
    simp only [joinNames]
    rw [splitComma_append n _ (h n List.mem_cons_self),
      splitComma_join (m :: ns) (by simp) fun x hx => h x (List.mem_cons_of_mem _ hx)]

theorem stripBlank_plain (n : PyStr) (h : ∀ c ∈ n, c.isWhitespace = false) : stripBlank n = n := by
  have hd : ∀ l : PyStr, (∀ c ∈ l, c.isWhitespace = false) → l.dropWhile Char.isWhitespace = l := by
    intro l hl
    cases l with
    | nil => rfl
    | cons c l => simp [hl c List.mem_cons_self]
  unfold stripBlank
  rw [hd n h, hd n.reverse (by simpa using h), List.reverse_reverse]

theorem argNames_join (ns : List PyStr) (h : ∀ n ∈ ns, Plainly n) : argNames (joinNames ns) = ns := by
  unfold argNames
  by_cases he : ns = []
  · subst he; decide
  · rw [splitComma_join ns he fun n hn hc => ((h n hn).2 _ hc).1 rfl]
    have : ns.map stripBlank = ns := by
      conv => rhs; rw [← List.map_id ns]
      exact List.map_congr_left fun n hn => stripBlank_plain n fun c hc => ((h n hn).2 c hc).2
    rw [this, List.filter_eq_self]
    intro n hn
    simpa using (h n hn).1

theorem callsFrom_append (l l' : List Mark) (calls : List Call) (h : ∀ a vs, Mark.parametrize a vs ∉ l') :
    callsFrom (l ++ l') calls = callsFrom l calls := by
  induction l generalizing calls with
  | nil =>
    induction l' with
    | nil => rfl
    | cons m l' ih =>
      have h' := fun a vs => fun hm => h a vs (List.mem_cons_of_mem m hm)
      cases m with
      | parametrize a vs => exact absurd List.mem_cons_self (h a vs)
      | order => exact ih h'
      | skip => exact ih h'
      | xfail => exact ih h'
      | timeout => exact ih h'
      | test => exact ih h'
      | other => exact ih h'
  | cons m l ih =>
    cases m with
    | parametrize a vs =>
      simp only [List.cons_append, callsFrom]
      cases parametrize a vs calls with
      | error e => rfl
      | ok c => exact ih c
    | order => exact ih calls
    | skip => exact ih calls
    | xfail => exact ih calls
    | timeout => exact ih calls
    | test => exact ih calls
    | other => exact ih calls

theorem asMarks_calls (x : Given) (h : ∀ a vs, Mark.parametrize a vs ∉ x.own) (calls : List Call) :
    callsFrom (asMarks x) calls = callsFrom (x.options.map optMark) calls := by
  unfold asMarks
  simp only [List.append_assoc]
  rw [callsFrom_append]
  intro a vs
  simp only [List.mem_append, not_or]
  refine ⟨?_, ?_, ?_, ?_, by simp, h a vs⟩
  · split <;> simp
  · split <;> simp
  · split <;> simp
  · split <;> simp

/-- An argument as pytest passes it. -/
def objArg (a : PyStr × Obj) : PyStr × PVal := (a.1, .obj a.2)

theorem extractAll_one (n : PyStr) : ∀ vs : List Obj, extractAll [n] (vs.map .obj) = .ok (vs.map fun v => [.obj v])
  | [] => rfl
  | v :: vs => by simp [extractAll, extract, extractAll_one n vs]

theorem extractAll_many (ns : List PyStr) (h1 : ns.length ≠ 1) : ∀ rows : List (List Obj),
    (∀ r ∈ rows, r.length = ns.length) → extractAll ns (rows.map .row) = .ok (rows.map fun r => r.map .obj)
  | [], _ => rfl
  | r :: rows, h => by
    simp [extractAll, extract, h1, h r List.mem_cons_self,
      extractAll_many ns h1 rows fun r hr => h r (List.mem_cons_of_mem _ hr)]

theorem carried_bare {v : Obj} (h : ∀ x n, v ≠ .param x n) : DecoSpec.carried v = v := by
  cases v <;> first | rfl | exact absurd rfl (h _ _)

theorem map_range {α β : Type} (f : α → β) (g : Nat → β) : ∀ l : List α, (∀ (i : Nat) (h : i < l.length), g i = f l[i]) →
    (List.range l.length).map g = l.map f := by
  intro l h
  refine List.ext_getElem (by simp) fun i h1 h2 => ?_
  simp only [List.getElem_map, List.getElem_range]
  exact h i (by simpa using h1)

/-- One option. -/
theorem parametrize_opt (o : Opt) (calls : List Call) (hr : DecoSpec.Rectangular o) (hn : ∀ n ∈ DecoSpec.names o, Plainly n)
    (hb : Bare o) (h1 : ∀ ns rows, o = .many ns rows → ns.length ≠ 1) (hz : DecoSpec.size o ≠ 0)
    (hf : ∀ c ∈ calls, ∀ n ∈ DecoSpec.names o, n ∉ c.args.map (·.1)) :
    ∃ a vs, optMark o = .parametrize a vs ∧
      parametrize a vs calls = .ok (calls.flatMap fun c => (List.range (DecoSpec.size o)).map fun i =>
        ⟨c.args ++ (DecoSpec.args o i).map objArg, c.skipped⟩) := by
  cases o with
  | one n vs =>
    refine ⟨_, _, rfl, ?_⟩
    have ha : argNames n = [n] := argNames_join [n] (by simpa [DecoSpec.names] using hn)
    unfold parametrize
    simp only [ha, extractAll_one]
    have hv : vs ≠ [] := by intro e; subst e; exact hz rfl
    rw [if_neg ?_, if_neg (by simpa using hv)]
    · congr 2
      funext c
      rw [List.map_map, List.map_map]
      symm
      refine map_range _ _ vs fun i hi => ?_
      simp [DecoSpec.args, List.getElem?_eq_getElem hi, objArg,
        carried_bare fun x m => hb _ (List.getElem_mem hi) x m]
    · simp only [List.any_eq_true, not_exists, not_and]
      intro c hc m hm
      simp at hm
      subst hm
      have := hf c hc m (by simp [DecoSpec.names])
      simpa using this
  | many ns rows =>
    refine ⟨_, _, rfl, ?_⟩
    have ha : argNames (joinNames ns) = ns := argNames_join ns hn
    unfold parametrize
    simp only [ha, extractAll_many ns (h1 ns rows rfl) rows hr]
    have hv : rows ≠ [] := by intro e; subst e; exact hz rfl
    rw [if_neg ?_, if_neg (by simpa using hv)]
    · congr 2
      funext c
      rw [List.map_map, List.map_map]
      symm
      refine map_range _ _ rows fun i hi => ?_
      have hc : rows[i].map DecoSpec.carried = rows[i] := by
        conv => rhs; rw [← List.map_id rows[i]]
        exact List.map_congr_left fun v hv => carried_bare fun x m => hb _ (List.getElem_mem hi) v hv x m
      simp only [DecoSpec.args, List.getElem?_eq_getElem hi, hc, Function.comp_apply]
      simp [objArg, List.zip_map_right, Prod.map]
    · simp only [List.any_eq_true, not_exists, not_and]
      intro c hc m hm
      have := hf c hc m hm
      simpa using this

theorem args_names (o : Opt) (i : Nat) : ∀ a ∈ DecoSpec.args o i, a.1 ∈ DecoSpec.names o := by
  intro a ha
  cases o with
  | one n vs =>
    simp only [DecoSpec.args] at ha
    split at ha
    · simp at ha; subst ha; simp [DecoSpec.names]
    · simp at ha
  | many ns rows =>
    simp only [DecoSpec.args] at ha
    split at ha
    · exact (List.of_mem_zip ha).1
    · simp at ha

/-- All options. -/
theorem callsFrom_options : ∀ (os : List Opt) (calls : List Call), (∀ o ∈ os, DecoSpec.Rectangular o) →
    DecoSpec.DistinctNames os → (∀ o ∈ os, ∀ n ∈ DecoSpec.names o, Plainly n) → (∀ o ∈ os, Bare o) →
    (∀ ns rows, Opt.many ns rows ∈ os → ns.length ≠ 1) → (∀ o ∈ os, DecoSpec.size o ≠ 0) →
    (∀ c ∈ calls, ∀ n ∈ os.flatMap DecoSpec.names, n ∉ c.args.map (·.1)) →
    callsFrom (os.map optMark) calls = .ok (calls.flatMap fun c =>
      (prodRec ((os.map DecoSpec.size).map List.range)).map fun sel =>
        ⟨c.args ++ (DecoSpec.combination os sel).map objArg, c.skipped⟩)
  | [], calls, _, _, _, _, _, _, _ => by
    simp only [List.map_nil, callsFrom, prodRec, DecoSpec.combination, List.map_cons, List.append_nil]
    congr 1
    have : ∀ l : List Call, l = l.flatMap fun c => [⟨c.args ++ [].map objArg, c.skipped⟩] := by
      intro l
      induction l with
      | nil => rfl
      | cons c l ih => rw [List.flatMap_cons, ← ih]; simp
    simpa using this calls
  | o :: os, calls, hr, hd, hn, hb, h1, hz, hf => by
    unfold DecoSpec.DistinctNames at hd
    rw [List.flatMap_cons, List.nodup_append] at hd
    obtain ⟨a, vs, e1, e2⟩ := parametrize_opt o calls (hr o List.mem_cons_self) (hn o List.mem_cons_self)
      (hb o List.mem_cons_self) (fun ns rows e => h1 ns rows (e ▸ List.mem_cons_self)) (hz o List.mem_cons_self)
      (fun c hc n hm => hf c hc n (by rw [List.flatMap_cons]; exact List.mem_append_left _ hm))
    rw [List.map_cons, e1]
    simp only [callsFrom, e2]
    rw [callsFrom_options os _ (fun o h => hr o (List.mem_cons_of_mem _ h)) hd.2.1
      (fun o h => hn o (List.mem_cons_of_mem _ h)) (fun o h => hb o (List.mem_cons_of_mem _ h))
      (fun ns rows h => h1 ns rows (List.mem_cons_of_mem _ h)) (fun o h => hz o (List.mem_cons_of_mem _ h)) ?_]
    · congr 1
      rw [List.flatMap_assoc]
      congr 1
      funext c
      simp only [List.map_cons, prodRec, List.map_flatMap, List.map_map]
      rw [List.flatMap_map]
      congr 1
      funext i
      refine List.map_congr_left fun sel _ => ?_
      simp [DecoSpec.combination]
    · intro c hc n hm hx
      obtain ⟨c0, hc0, hc⟩ := List.mem_flatMap.1 hc
      obtain ⟨i, -, rfl⟩ := List.mem_map.1 hc
      simp only [List.map_append, List.mem_append] at hx
      rcases hx with hx | hx
      · exact hf c0 hc0 n (by rw [List.flatMap_cons]; exact List.mem_append_right _ hm) hx
      · obtain ⟨p, hp, rfl⟩ := List.mem_map.1 hx
        obtain ⟨q, hq, rfl⟩ := List.mem_map.1 hp
        exact hd.2.2 _ (args_names o i q hq) _ hm rfl

/-- Both lists of choices are the same. -/
theorem choices_eq {ns : List Nat} {l l' : List (List Nat)} (h : AllChoices ns l) (h' : AllChoices ns l') : l = l' := by
  have hirr := before_irrefl
  have hasym : ∀ a b, Before a b → ¬ Before b a := by
    intro a
    induction a with
    | nil => intro b h; cases b <;> exact h.elim
    | cons i a ih =>
      intro b hab hba
      cases b with
      | nil => exact hab.elim
      | cons j b =>
        rcases hab with h1 | ⟨h1, h2⟩ <;> rcases hba with h3 | ⟨h3, h4⟩
        · omega
        · omega
        · omega
        · exact ih b h2 h4
  have hm : ∀ s, s ∈ l ↔ s ∈ l' := fun s => (h.2 s).trans (h'.2 s).symm
  have key : ∀ (l l' : List (List Nat)), l.Pairwise Before → l'.Pairwise Before → (∀ s, s ∈ l ↔ s ∈ l') → l = l' := by
    intro l
    induction l with
    | nil =>
      intro l' _ _ hm
      cases l' with
      | nil => rfl
      | cons b l' => exact absurd ((hm b).2 List.mem_cons_self) (by simp)
    | cons a l ih =>
      intro l' h1 h2 hm
      cases l' with
      | nil => exact absurd ((hm a).1 List.mem_cons_self) (by simp)
      | cons b l' =>
        rw [List.pairwise_cons] at h1 h2
        have hab : a = b := by
          rcases List.mem_cons.1 ((hm a).1 List.mem_cons_self) with e | e
          · exact e
          · rcases List.mem_cons.1 ((hm b).2 List.mem_cons_self) with e' | e'
            · exact e'.symm
            · exact absurd (h1.1 b e') (hasym _ _ (h2.1 a e))
        subst hab
        rw [ih l' h1.2 h2.2]
        intro s
        constructor
        · intro hs
          rcases List.mem_cons.1 ((hm s).1 (List.mem_cons_of_mem _ hs)) with e | e
          · subst e; exact absurd (h1.1 _ hs) (hirr _)
          · exact e
        · intro hs
          rcases List.mem_cons.1 ((hm s).2 (List.mem_cons_of_mem _ hs)) with e | e
          · subst e; exact absurd (h2.1 _ hs) (hirr _)
          · exact e
  exact key l l' h.1 h'.1 hm

end PytestDeco

/-- **C156** pytest makes the calls that `cocotb.parametrize` describes. Missing: values wrapped in `Param`, options with
one name in a tuple, and options without values. -/
theorem C156_calls_partial (ident : PyStr → Bool) (g : Gen) (x : Given) (ts : List Deco.Test) (hx : x.options = g.options)
    (hown : ∀ a vs, Mark.parametrize a vs ∉ x.own) (hr : ∀ o ∈ g.options, DecoSpec.Rectangular o)
    (hd : DecoSpec.DistinctNames g.options) (hn : ∀ o ∈ g.options, ∀ n ∈ DecoSpec.names o, Plainly n)
    (ht : generateTests ident g = .ok ts) (hb : ∀ o ∈ g.options, Bare o)
    (h1 : ∀ ns rows, Opt.many ns rows ∈ g.options → ns.length ≠ 1) (hz : ∀ o ∈ g.options, DecoSpec.size o ≠ 0) :
    pytestCalls (asMarks x) = .ok (ts.map callOf) := by
  obtain ⟨sels, ts', h2, h3, h4, h5, h6⟩ := generate_eq (ident := ident) g hr hd
  rw [ht] at h3
  cases h3
  have hs := choices_eq h2 (prodRec_choices (g.options.map DecoSpec.size))
  unfold pytestCalls
  rw [asMarks_calls x hown, hx, callsFrom_options g.options _ hr hd hn hb h1 hz (by simp), ← hs]
  congr 1
  simp only [List.flatMap_cons, List.flatMap_nil, List.append_nil, List.nil_append]
  refine List.ext_getElem (by simp [h4]) fun k k1 k2 => ?_
  simp only [List.length_map] at k1 k2
  have := (h6 k _ _ (List.getElem?_eq_getElem k1) (List.getElem?_eq_getElem k2)).1
  simp only [List.getElem_map, callOf, this]
  rfl

/-- Two options, one of them with two names. -/
example :
    let os : List Opt := [.one ['x'] [.prim ['1'], .prim ['2']], .many [['y'], ['z']] [[.prim ['3'], .prim ['4']], [.prim ['5'], .prim ['6']]]]
    pytestCalls (asMarks ⟨some 3, false, [], false, 1, os, []⟩) = .ok
      [⟨[(['x'], .obj (.prim ['1'])), (['y'], .obj (.prim ['3'])), (['z'], .obj (.prim ['4']))], false⟩,
       ⟨[(['x'], .obj (.prim ['1'])), (['y'], .obj (.prim ['5'])), (['z'], .obj (.prim ['6']))], false⟩,
       ⟨[(['x'], .obj (.prim ['2'])), (['y'], .obj (.prim ['3'])), (['z'], .obj (.prim ['4']))], false⟩,
       ⟨[(['x'], .obj (.prim ['2'])), (['y'], .obj (.prim ['5'])), (['z'], .obj (.prim ['6']))], false⟩] := by decide

/-! ## C157 -/

namespace PytestDeco

theorem seen_iff (f : Func) : collected f = true ↔ Seen f := by
  unfold collected Seen
  cases f.runner <;> simp [or_comm, or_assoc, or_left_comm]

theorem marked_iff (m : Module) (f : Func) : closestTest m f = true ↔ Marked m f := by
  unfold closestTest ownTest Marked
  cases f.runner <;> cases f.decorated <;> cases f.test <;> cases m.test <;> simp

theorem closestRunner_iff (m : Module) (f : Func) : closestRunner m f = true ↔ f.runner ≠ none ∨ m.runner = true := by
  unfold closestRunner
  cases f.runner <;> simp

theorem keepUnder_iff (m : Module) (f : Func) : keepUnder m f = true ↔ Plain m f := by
  unfold keepUnder Plain
  rw [Bool.and_eq_true, seen_iff, ← marked_iff]
  have h := closestRunner_iff m f
  cases hr : closestRunner m f with
  | true =>
    have := h.1 hr
    cases f.async <;> simp <;> (rcases this with e | e <;> simp [e])
  | false =>
    rw [hr] at h
    have h1 : f.runner = none := Classical.byContradiction fun e => by have := h.2 (.inl e); cases this
    have h2 : m.runner = false := by
      rw [← Bool.not_eq_true]
      intro e
      have := h.2 (.inr e); cases this
    cases f.async <;> simp [h1, h2]

theorem keepSim_iff (m : Module) (f : Func) (h : m.dirNamedTest = false) : keepSim m f = true ↔ CocotbTest m f := by
  unfold keepSim CocotbTest
  rw [Bool.and_eq_true, Bool.and_eq_true, seen_iff, h, Bool.or_false, marked_iff]
  exact ⟨fun ⟨⟨a, b⟩, c⟩ => ⟨a, c, b⟩, fun ⟨a, c, b⟩ => ⟨⟨a, b⟩, c⟩⟩

theorem runnerModules_iff (self : Nat) (f : Func) (k : Nat) : k ∈ runnerModules self f ↔ RunsModule self f k := by
  unfold runnerModules RunsModule
  cases h : f.runner with
  | none => simp
  | some l => cases l <;> simp

theorem topItems_eq (mods : Nat → Module) (self : Nat) (f : Func) :
    (Plain (mods self) f → topItems mods self f = [(self, f)]) ∧
    (IsRunner (mods self) f → topItems mods self f = (self, f) ::
      (runnerModules self f).flatMap fun k => ((mods k).funcs.filter (keepUnder (mods k))).map (k, ·)) ∧
    (¬ Plain (mods self) f → ¬ IsRunner (mods self) f → topItems mods self f = []) := by
  have h1 := seen_iff f
  have h2 := marked_iff (mods self) f
  have h3 := closestRunner_iff (mods self) f
  unfold Plain IsRunner
  rw [← h1, ← h2]
  have h4 : (f.runner = none ∧ (mods self).runner = false) ↔ closestRunner (mods self) f = false := by
    rw [← Bool.not_eq_true (closestRunner (mods self) f), h3]
    cases f.runner <;> simp
  rw [h4, ← h3]
  unfold topItems
  by_cases a : collected f = true <;> by_cases b : closestTest (mods self) f = true <;>
    by_cases c : closestRunner (mods self) f = true <;> by_cases d : f.async = true <;> simp [a, b, c, d]

end PytestDeco

/-- The simulator runs the cocotb tests of the modules it is given, and nothing else. -/
def C157_sim_full : Prop :=
  ∀ (mods : Nat → Module) (given : List Nat) (k : Nat) (f : Func),
    (k, f) ∈ simItems mods given ↔ k ∈ given ∧ f ∈ (mods k).funcs ∧ CocotbTest (mods k) f

/-- In a directory called `cocotb_test`, all asynchronous tests are taken for cocotb tests; the main process runs them,
too. -/
theorem C157_sim_counterexample : ¬ C157_sim_full := by
  intro h
  let f : Func := ⟨0, true, false, false, true, false, none⟩
  have := (h (fun _ => ⟨[f], false, false, true⟩) [0] 0 f).1 (by decide)
  simp [CocotbTest, Marked, f] at this

example :
    let f : Func := ⟨0, true, false, false, true, false, none⟩
    (0, f) ∈ mainItems (fun _ => ⟨[f], false, false, true⟩) [0] := by decide

/-- **C157** The simulator runs the cocotb tests of the modules it is given, each once, and nothing else. Missing: modules
below a directory called `cocotb_test`. -/
theorem C157_sim_partial (mods : Nat → Module) (given : List Nat) (hdir : ∀ k ∈ given, (mods k).dirNamedTest = false) :
    (∀ k f, (k, f) ∈ simItems mods given ↔ k ∈ given ∧ f ∈ (mods k).funcs ∧ CocotbTest (mods k) f) ∧
    (given.Nodup → (∀ k, (mods k).funcs.Nodup) → (simItems mods given).Nodup) := by
  constructor
  · intro k f
    unfold simItems
    simp only [List.mem_flatMap, List.mem_map, List.mem_filter, Prod.mk.injEq]
    constructor
    · rintro ⟨j, hj, g, ⟨hg, hk⟩, rfl, rfl⟩
      exact ⟨hj, hg, (keepSim_iff _ _ (hdir j hj)).1 hk⟩
    · rintro ⟨hk, hf, hc⟩
      exact ⟨k, hk, f, ⟨hf, (keepSim_iff _ _ (hdir k hk)).2 hc⟩, rfl, rfl⟩
  · intro hg hf
    unfold simItems List.Nodup
    rw [List.pairwise_flatMap]
    refine ⟨fun k _ => ?_, ?_⟩
    · rw [List.pairwise_map]
      exact ((hf k).filter _).imp fun h e => h (Prod.mk.inj e).2
    · refine List.Pairwise.imp ?_ hg
      intro i j hij a ha b hb e
      obtain ⟨_, -, rfl⟩ := List.mem_map.1 ha
      obtain ⟨_, -, rfl⟩ := List.mem_map.1 hb
      exact hij (Prod.mk.inj e).1

/-- **C157** The main process runs no cocotb test. -/
theorem C157_apart (mods : Nat → Module) (given : List Nat) (k : Nat) (f : Func) (h : (k, f) ∈ mainItems mods given) :
    ¬ CocotbTest (mods k) f := by
  have hp : ∀ k f, Plain (mods k) f → ¬ CocotbTest (mods k) f := fun _ _ h h' => h.2.1 h'.2.2
  unfold mainItems at h
  simp only [List.mem_flatMap] at h
  obtain ⟨j, -, g, -, h⟩ := h
  obtain ⟨t1, t2, t3⟩ := topItems_eq mods j g
  by_cases h1 : Plain (mods j) g
  · rw [t1 h1] at h
    simp only [List.mem_singleton, Prod.mk.injEq] at h
    obtain ⟨rfl, rfl⟩ := h
    exact hp _ _ h1
  by_cases h2 : IsRunner (mods j) g
  · rw [t2 h2] at h
    rcases List.mem_cons.1 h with h | h
    · simp only [Prod.mk.injEq] at h
      obtain ⟨rfl, rfl⟩ := h
      exact fun h' => h2.2.2.1 h'.2.2
    · simp only [List.mem_flatMap, List.mem_map, List.mem_filter, Prod.mk.injEq] at h
      obtain ⟨i, -, g', ⟨-, hk⟩, rfl, rfl⟩ := h
      exact hp _ _ ((keepUnder_iff _ _).1 hk)
  · rw [t3 h1 h2] at h; cases h

/-- The main process runs each runner, and each test that has nothing to do with cocotb, exactly once. -/
def C157_once_full : Prop :=
  ∀ (mods : Nat → Module) (given : List Nat), given.Nodup → (∀ k, (mods k).funcs.Nodup) →
    ∀ k ∈ given, ∀ f ∈ (mods k).funcs, Plain (mods k) f ∨ IsRunner (mods k) f → (mainItems mods given).count (k, f) = 1

/-- A plain test in a module with a runner for this module is run twice. -/
theorem C157_once_counterexample : ¬ C157_once_full := by
  intro h
  let f : Func := ⟨0, false, false, false, true, false, none⟩
  let r : Func := ⟨1, false, false, false, true, false, some []⟩
  have := h (fun _ => ⟨[f, r], false, false, false⟩) [0] (by decide) (fun _ => by decide) 0 (by simp) f (by simp)
    (.inl ⟨.inl rfl, by simp [Marked, f], rfl, rfl⟩)
  revert this
  decide

/-- **C157** The main process runs each runner, and each test that has nothing to do with cocotb, exactly once. Missing:
runners for modules that contain tests which have nothing to do with cocotb. -/
theorem C157_once_partial (mods : Nat → Module) (given : List Nat) (hg : given.Nodup) (hf : ∀ k, (mods k).funcs.Nodup)
    (hm : ∀ k ∈ given, ∀ r ∈ (mods k).funcs, IsRunner (mods k) r → ∀ j, RunsModule k r j → ∀ f ∈ (mods j).funcs,
      ¬ Plain (mods j) f)
    (k : Nat) (hk : k ∈ given) (f : Func) (hfk : f ∈ (mods k).funcs) (h : Plain (mods k) f ∨ IsRunner (mods k) f) :
    (mainItems mods given).count (k, f) = 1 := by
  classical
  have htop : ∀ j ∈ given, ∀ g ∈ (mods j).funcs,
      topItems mods j g = if Plain (mods j) g ∨ IsRunner (mods j) g then [(j, g)] else [] := by
    intro j hj g hgj
    obtain ⟨t1, t2, t3⟩ := topItems_eq mods j g
    by_cases h1 : Plain (mods j) g
    · rw [if_pos (.inl h1), t1 h1]
    by_cases h2 : IsRunner (mods j) g
    · rw [if_pos (.inr h2), t2 h2]
      congr 1
      rw [List.flatMap_eq_nil_iff]
      intro i hi
      rw [List.map_eq_nil_iff, List.filter_eq_nil_iff]
      intro x hx hkx
      exact hm j hj g hgj h2 i ((runnerModules_iff j g i).1 hi) x hx ((keepUnder_iff _ _).1 hkx)
    · rw [if_neg (by simp [h1, h2]), t3 h1 h2]
  have hmod : ∀ j ∈ given, ((mods j).funcs.flatMap (topItems mods j)).count (k, f) = if j = k then 1 else 0 := by
    intro j hj
    have hinner : ∀ l : List Func, l.Nodup → (∀ g ∈ l, g ∈ (mods j).funcs) →
        (l.flatMap (topItems mods j)).count (k, f) = if j = k ∧ f ∈ l then 1 else 0 := by
      intro l
      induction l with
      | nil => intro _ _; simp
      | cons g l ih =>
        intro hn hl
        rw [List.nodup_cons] at hn
        rw [List.flatMap_cons, List.count_append, ih hn.2 fun x hx => hl x (List.mem_cons_of_mem _ hx),
          htop j hj g (hl g List.mem_cons_self)]
        by_cases hjk : j = k
        · subst hjk
          by_cases hgf : g = f
          · subst hgf
            simp [h, hn.1]
          · have : (if Plain (mods j) g ∨ IsRunner (mods j) g then [(j, g)] else []).count (j, f) = 0 := by
              split
              · rw [List.count_eq_zero]; simp; exact fun e => hgf e.symm
              · rfl
            rw [this]
            simp [Ne.symm hgf]
        · have : (if Plain (mods j) g ∨ IsRunner (mods j) g then [(j, g)] else []).count (k, f) = 0 := by
            split
            · rw [List.count_eq_zero]; simp; exact fun e => absurd e.symm hjk
            · rfl
          rw [this]
          simp [hjk]
    rw [hinner _ (hf j) fun _ h => h]
    by_cases hjk : j = k
    · subst hjk; simp [hfk]
    · simp [hjk]
  have hall : ∀ l : List Nat, l.Nodup → (∀ j ∈ l, j ∈ given) →
      (l.flatMap fun j => (mods j).funcs.flatMap (topItems mods j)).count (k, f) = if k ∈ l then 1 else 0 := by
    intro l
    induction l with
    | nil => intro _ _; simp
    | cons j l ih =>
      intro hn hl
      rw [List.nodup_cons] at hn
      rw [List.flatMap_cons, List.count_append, ih hn.2 fun x hx => hl x (List.mem_cons_of_mem _ hx),
        hmod j (hl j List.mem_cons_self)]
      by_cases hjk : j = k
      · subst hjk; simp [hn.1]
      · simp [hjk, Ne.symm hjk]
  unfold mainItems
  rw [hall given hg fun _ h => h, if_pos hk]

/-- A module with a runner for another one, which contains a cocotb test. -/
example :
    let f : Func := ⟨0, false, false, false, true, false, none⟩
    let r : Func := ⟨1, false, false, false, true, false, some [1]⟩
    let t : Func := ⟨2, true, true, false, true, false, none⟩
    let mods : Nat → Module := fun k => if k = 0 then ⟨[f, r], false, false, false⟩ else ⟨[t], false, false, false⟩
    mainItems mods [0, 1] = [(0, f), (0, r)] ∧ simItems mods [1] = [(1, t)] ∧ Plain (mods 0) f ∧ IsRunner (mods 0) r ∧
      RunsModule 0 r 1 ∧ CocotbTest (mods 1) t := by
  refine ⟨by decide, by decide, ⟨.inl rfl, by simp [Marked], rfl, rfl⟩, ⟨.inl rfl, rfl, by simp [Marked], .inl (by simp)⟩,
    .inl ⟨[1], rfl, by simp⟩, ⟨.inl rfl, rfl, .inr (.inr (.inr ⟨rfl, rfl, rfl⟩))⟩⟩

end Verif
