import Verif.Lemmas.RunnerText
import Verif.Lemmas.RunnerRegex
import Verif.Lemmas.RunnerBuild
import Verif.Lemmas.RunnerEnv
/-!
# Properties of the test runner
-/
namespace Verif
open Verif.Runner Verif.Env

/-! ### C85: a run that is reported as passed did pass -/

theorem executeCmds_ok {ps : List Proc} {f g : File} :
    executeCmds ps f = (.ok (), g) ↔ AllZero ps ∧ g = after f ps := by
  induction ps generalizing f with
  | nil => simp [executeCmds, AllZero, after]; exact eq_comm
  | cons p ps ih =>
    unfold executeCmds
    cases hc : p.code with
    | none => simp [AllZero, hc]
    | some c =>
      by_cases h0 : c = 0
      · subst h0
        simp only [ne_eq, not_true, if_false]
        rw [ih]
        simp [AllZero, hc, after]
      · simp [h0, AllZero, hc]

/-- Under pytest `test` returns exactly if every command ended with code 0 and the results file then holds no failed
test (and the results file was not given by a relative path). -/
theorem C85_pytest_pass_iff (xml : XmlArg) (unlinkOk : Bool) (before : File) (cmds : PyM (List Proc)) (f : File) :
    Runner.test true xml unlinkOk before cmds = (.ok (), f) ↔
      xml ≠ .relative ∧ ∃ ps, cmds = .ok ps ∧ AllZero ps ∧
        f = after (if unlinkOk then .missing else before) ps ∧ NoFailure f := by
  unfold Runner.test
  by_cases hx : xml = .relative
  · simp [hx]
  · simp only [hx, false_and, if_false, ne_eq, not_false_eq_true, true_and]
    cases cmds with
    | error e => simp
    | ok ps =>
      simp only [Except.ok.injEq, exists_eq_left']
      rcases he : executeCmds ps (if unlinkOk = true then File.missing else before) with ⟨r, g⟩
      cases r with
      | error e =>
        simp only [Prod.mk.injEq, reduceCtorEq, false_and, false_iff, not_and]
        intro hz hf
        have := executeCmds_ok.mpr ⟨hz, hf⟩
        rw [he] at this
        simp at this
      | ok u =>
        cases u
        obtain ⟨hz, hg⟩ := executeCmds_ok.mp he
        simp only [if_true, not_true, if_false]
        have key : (AllZero ps ∧ f = after (if unlinkOk = true then File.missing else before) ps ∧ NoFailure f) ↔
            (f = g ∧ NoFailure g) := by
          constructor
          · rintro ⟨_, rfl, h⟩; exact ⟨hg.symm, hg ▸ h⟩
          · rintro ⟨rfl, h⟩; exact ⟨hz, hg, h⟩
        rw [key]
        cases g with
        | missing => simp [readResults, NoFailure]
        | malformed => simp [readResults, NoFailure]
        | doc d =>
          unfold readResults NoFailure
          cases hr : XUnit.getResults d with
          | error e => cases e <;> simp [hr]
          | ok r =>
            obtain ⟨n, k⟩ := r
            by_cases hk : k = 0
            · subst hk; simp [hr]; exact eq_comm
            · simp [hk, hr]

/-- The results that are judged are those of this run: what was in the file before does not matter, provided it could be
deleted. -/
theorem C85_fresh_results (pytest : Bool) (xml : XmlArg) (b b' : File) (cmds : PyM (List Proc)) :
    (Runner.test pytest xml true b cmds).1 = (Runner.test pytest xml true b' cmds).1 := by
  unfold Runner.test
  split
  · rfl
  · rfl

/-- Outside pytest `test` returns exactly if every command ended with code 0; results are not looked at. -/
theorem C85_script_returns_iff (xml : XmlArg) (unlinkOk : Bool) (before : File) (cmds : PyM (List Proc)) :
    (Runner.test false xml unlinkOk before cmds).1 = .ok () ↔ ∃ ps, cmds = .ok ps ∧ AllZero ps := by
  unfold Runner.test
  simp only [Bool.false_eq_true, and_false, if_false]
  cases cmds with
  | error e => simp
  | ok ps =>
    rcases he : executeCmds ps (if unlinkOk = true then File.missing else before) with ⟨r, g⟩
    cases r with
    | error e =>
      simp only [he, reduceCtorEq, Except.ok.injEq, exists_eq_left', false_iff]
      intro hz
      have := executeCmds_ok (f := if unlinkOk = true then .missing else before).mpr ⟨hz, rfl⟩
      rw [he] at this
      simp at this
    | ok u => simp [he, (executeCmds_ok.mp he).1]

/-- A document with the given number of failures. -/
def resultsDoc (failures : Nat) : XUnit.Elem :=
  .mk "testsuites" [] none [.mk "testsuite" [("tests", decText 2), ("failures", decText failures)] none []]

example : Runner.test true .none_ true (.doc (resultsDoc 1)) (.ok [⟨fun _ => .doc (resultsDoc 0), some 0⟩]) =
    (.ok (), .doc (resultsDoc 0)) :=
  (C85_pytest_pass_iff _ _ _ _ _).mpr ⟨by decide, _, rfl, by simp [AllZero], rfl, _, 2, rfl, by decide +kernel⟩

/-- The full statement about failing runs: a run that is not reported as passed does not end the process with code 0. -/
def C85_failure_code_full : Prop :=
  ∀ pytest xml unlinkOk before cmds, (Runner.test pytest xml unlinkOk before cmds).1 ≠ .error (.exit 0)

/-- It is false: if the simulator ends with code 0 and leaves no results, the process exits with code 0. -/
theorem C85_failure_code_counterexample : ¬ C85_failure_code_full := fun h =>
  h true .none_ true .missing (.ok [⟨id, some 0⟩]) rfl

theorem getResults_error {d : XUnit.Elem} {e : PyErr} (h : XUnit.getResults d = .error e) : e = .valueError := by
  have ha : ∀ x n e, XUnit.intAttr x n = .error e → e = .valueError := by
    intro x n e h
    unfold XUnit.intAttr intText at h
    split at h
    · split at h
      · cases h
      · cases h; rfl
    · cases h
  unfold XUnit.getResults at h
  revert h
  generalize d.findall "testsuite" = es
  generalize 0 = t
  have : ∀ es t f, XUnit.resultsLoop es t f = .error e → e = .valueError := by
    intro es
    induction es with
    | nil => intro t f h; cases h
    | cons x es ih =>
      intro t f h
      unfold XUnit.resultsLoop at h
      split at h
      · rename_i h1; cases h; exact ha _ _ _ h1
      · split at h
        · rename_i h1; cases h; exact ha _ _ _ h1
        · split at h
          · rename_i h1; cases h; exact ha _ _ _ h1
          · exact ih _ _ h
  exact this es t t

/-- It holds when the commands leave a results file. -/
theorem C85_failure_code_partial (pytest : Bool) (xml : XmlArg) (unlinkOk : Bool) (before : File) (ps : List Proc)
    (hf : ∀ f, after (if unlinkOk then .missing else before) ps = f → f ≠ .missing) :
    (Runner.test pytest xml unlinkOk before (.ok ps)).1 ≠ .error (.exit 0) := by
  have hexec : ∀ ps f g, executeCmds ps f ≠ (.error (.exit 0), g) := by
    intro ps
    induction ps with
    | nil => intro f g; simp [executeCmds]
    | cons p ps ih =>
      intro f g
      unfold executeCmds
      cases p.code with
      | none => simp
      | some c =>
        simp only
        split
        · simp
        · exact ih _ _
  unfold Runner.test
  split
  · simp
  · simp only
    rcases he : executeCmds ps (if unlinkOk = true then File.missing else before) with ⟨r, g⟩
    cases r with
    | error e =>
      intro h
      simp only at h
      cases h
      exact hexec _ _ _ he
    | ok u =>
      have hg := hf g (executeCmds_ok.mp he).2.symm
      simp only [not_true, ne_eq, if_true, if_false]
      split
      · cases g with
        | missing => exact absurd rfl hg
        | malformed => simp [readResults]
        | doc d =>
          have hd : readResults (.doc d) = .error (.py .valueError) ∨ ∃ r, readResults (.doc d) = .ok r := by
            unfold readResults
            cases hr : XUnit.getResults d with
            | error e => cases getResults_error hr; simp [hr]
            | ok r => simp [hr]
          rcases hd with hd | ⟨r, hd⟩
          · rw [hd]; simp
          · rw [hd]; simp only; split <;> simp
      · simp

/-- The full statement about the code of the simulator, from the comment in `test`: a simulator that fails after it left
results ends the process with its code. -/
def C85_simulator_code_full : Prop :=
  ∀ (before d : File) (c : Int), c ≠ 0 → NoFailure d →
    (Runner.test true .none_ true before (.ok [⟨fun _ => d, some c⟩])).1 = .error (.exit c)

/-- It is false of every simulator that fails: the code that would do it handles an exception that is not raised. -/
theorem C85_simulator_code_counterexample : ¬ C85_simulator_code_full := by
  intro h
  have := h .missing (.doc (resultsDoc 0)) 3 (by decide) ⟨_, 2, rfl, by decide +kernel⟩
  simp [Runner.test, executeCmds] at this

/-! ### C86: the settings given to `test` reach the simulator -/

/-- Module, top level, language and results file reach the simulator, whatever else is in the environment. -/
theorem C86_settings_arrive {h : Host} {a : TestArgs} {old env : Environ} (he : testEnv h a old = .ok env) :
    env (lit "COCOTB_TOPLEVEL") = some (a.toplevel.takeWhile (· != 45)) ∧
    env (lit "COCOTB_TEST_MODULES") = some a.modules ∧ env (lit "TOPLEVEL_LANG") = some a.lang ∧
    env (lit "COCOTB_RESULTS_FILE") = some a.resultsFile := testEnv_sets he

/-- The full statement: so do seed, filter and the variables in *extra_env*. -/
def C86_explicit_full : Prop :=
  ∀ (h : Host) (a : TestArgs) (old env : Environ), testEnv h a old = .ok env →
    (∀ s, a.seed = some s → env (lit "COCOTB_RANDOM_SEED") = some s) ∧
    (∀ f, a.testFilter = some f → env (lit "COCOTB_TEST_FILTER") = some f) ∧
    ∀ k v, a.extraEnv k = some v → k ∉ argKeys → env k = some v

/-- A host and arguments for examples. -/
def hostEx (environ : Environ) : Host :=
  { environ := environ, libsDir := lit "/l", sysPath := lit "/p", executable := lit "/e", libpython := some (lit "/lp"),
    entryPoint := lit "e,i", trustsInertial := false, gpiExtra := none }

def argsEx : TestArgs :=
  { extraEnv := fun k => if k = lit "A" then some (lit "1") else none, testcase := none, testFilter := some (lit "x"),
    seed := some (lit "5"), attachments := [], toplevel := lit "top-rtl", modules := lit "m", lang := lit "vhdl",
    resultsFile := lit "/r" }

/-- It is false: a variable of the same name in the environment of the runner's process wins. Here the seed 5 is asked
for and 7 is used. -/
theorem C86_explicit_counterexample : ¬ C86_explicit_full := by
  intro h
  have henv : ∃ env, testEnv (hostEx fun k => if k = lit "PATH" then some (lit "/b")
      else if k = lit "COCOTB_RANDOM_SEED" then some (lit "7") else none) argsEx (fun _ => none) = .ok env ∧
      env (lit "COCOTB_RANDOM_SEED") = some (lit "7") := ⟨_, rfl, by decide⟩
  obtain ⟨env, he, h7⟩ := henv
  have := (h _ _ _ _ he).1 (lit "5") rfl
  rw [h7] at this
  exact absurd this (by decide)

/-- It holds for every variable that the environment of the runner's process does not set and that is not one of the
runner's own. -/
theorem C86_explicit_partial {h : Host} {a : TestArgs} {old env : Environ} (he : testEnv h a old = .ok env) :
    (∀ s, h.environ (lit "COCOTB_RANDOM_SEED") = none → a.seed = some s → env (lit "COCOTB_RANDOM_SEED") = some s) ∧
    (∀ f, h.environ (lit "COCOTB_TEST_FILTER") = none → a.testFilter = some f →
      env (lit "COCOTB_TEST_FILTER") = some f) ∧
    (∀ t, h.environ (lit "COCOTB_TEST_FILTER") = none → a.testFilter = none → a.testcase = some t →
      env (lit "COCOTB_TEST_FILTER") = some (testcaseRegex t.list)) ∧
    ∀ k v, h.environ k = none → a.extraEnv k = some v → k ∉ argKeys → k ∉ runnerKeys → env k = some v := by
  refine ⟨fun s hn hs => ?_, fun f hn hf => ?_, fun t hn hf ht => ?_, fun k v hn hv hk hr => ?_⟩
  · rw [testEnv_get he (by decide)]
    simp only [updateEnv, hn, argEnv, hs, setOpt_some]
  · rw [testEnv_get he (by decide)]
    simp only [updateEnv, hn, argEnv, hf]
    rw [setOpt_other _ _ (by decide), setOpt_some]
  · rw [testEnv_get he (by decide)]
    simp only [updateEnv, hn, argEnv, hf, ht]
    rw [setOpt_other _ _ (by decide)]
    exact setOpt_some _ _ _
  · simp only [argKeys, runnerKeys, List.map_cons, List.map_nil, List.mem_cons, List.not_mem_nil, or_false,
      not_or] at hk hr
    rw [testEnv_get he (by simp [lateKeys, hk, hr])]
    simp only [updateEnv, hn, argEnv]
    rw [setOpt_other _ _ hk.2.1, setOpt_other _ _ hk.1, setOpt_other _ _ hk.1, hv]

example : ∃ env, testEnv (hostEx fun k => if k = lit "PATH" then some (lit "/b") else none) argsEx (fun _ => none) = .ok env ∧
    env (lit "COCOTB_RANDOM_SEED") = some (lit "5") ∧ env (lit "A") = some (lit "1") ∧
    env (lit "COCOTB_TOPLEVEL") = some (lit "top") := ⟨_, rfl, by decide, by decide, by decide⟩

/-- A run does not see what earlier builds and runs of the same runner were given. -/
theorem C86_no_leak (calls calls' : List Call) (h : Host) (a : TestArgs) :
    testEnv h a (calls.foldl Call.env fun _ => none) = testEnv h a (calls'.foldl Call.env fun _ => none) := rfl

/-! ### C87: the tests named in *testcase* are run -/

/-- Which tests are run when names are given: those whose full name, after some dot, ends in one of the names. -/
theorem C87_selected_iff {h : Host} {a : TestArgs} {old env : Environ} (he : testEnv h a old = .ok env)
    (names : List Text) (hn : a.testcase.map Testcase.list = some names) (hne : names ≠ [])
    (hf : a.testFilter = none) (h1 : h.environ (lit "COCOTB_TEST_FILTER") = none)
    (h2 : h.environ (lit "COCOTB_TESTCASE") = none) (h3 : a.extraEnv (lit "COCOTB_TESTCASE") = none) :
    ∃ fs, filters env = .ok fs ∧ ∀ full, Selects fs full ↔
      ∃ n ∈ names, ∃ x b e, full = x ++ lit "." ++ b ++ n ++ e ∧ 10 ∉ b ∧ (e = [] ∨ e = [10]) := by
  obtain ⟨t, ht, htl⟩ := Option.map_eq_some_iff.mp hn
  have hfil : env (lit "COCOTB_TEST_FILTER") = some (testcaseRegex names) := by
    rw [← htl]; exact (C86_explicit_partial he).2.2.1 t h1 hf ht
  have htc : env (lit "COCOTB_TESTCASE") = none := by
    rw [testEnv_get he (by decide)]
    simp only [updateEnv, h2, argEnv]
    rw [setOpt_other _ _ (by decide), setOpt_other _ _ (by decide), setOpt_other _ _ (by decide), h3]
  have hstrip : stripText (testcaseRegex names) = testcaseRegex names := by
    unfold stripText testcaseRegex
    have e1 : lit "\\.(" = [92, 46, 40] := by decide
    have e2 : lit ")$" = [41, 36] := by decide
    have e3 : isBlank 92 = false := by decide
    have e4 : isBlank 36 = false := by decide
    rw [e1, e2]
    simp [e3, e4]
  have hfs : filters env = .ok [testcaseRegex names] := by
    have e1 : getList env (lit "COCOTB_TESTCASE") none [44] = .ok [] := by
      unfold getList getStr
      rw [htc]
      rfl
    have e2 : getStr env (lit "COCOTB_TEST_FILTER") none = testcaseRegex names := by
      unfold getStr orText
      rw [hfil]
      simp only [Option.getD_some, hstrip]
      rw [if_neg]
      unfold testcaseRegex
      have e1 : lit "\\.(" = [92, 46, 40] := by decide
      rw [e1]; simp
    unfold filters
    rw [e1]
    simp only [e2]
    rw [if_neg (by simp), if_neg (by simp), if_pos]
    unfold testcaseRegex
    have e1 : lit "\\.(" = [92, 46, 40] := by decide
    rw [e1]; simp
  refine ⟨_, hfs, fun full => ?_⟩
  have hdot : lit "." = [46] := by decide
  have := search_regex names full
  unfold Selects
  simp only [List.mem_singleton, exists_eq_left, false_or, List.cons_ne_nil]
  rw [this]
  simp only [hne, false_and, false_or, hdot, List.append_assoc, List.cons_append, List.nil_append]

/-- The full statement: given names of tests, exactly the tests of that name are run. -/
def C87_testcase_full : Prop :=
  ∀ (h : Host) (a : TestArgs) (old env : Environ) (names : List Text) (fs : List Text) (m n : Text),
    testEnv h a old = .ok env → a.testcase = some (.names names) → a.testFilter = none →
    h.environ (lit "COCOTB_TEST_FILTER") = none → h.environ (lit "COCOTB_TESTCASE") = none →
    a.extraEnv (lit "COCOTB_TESTCASE") = none → filters env = .ok fs → 10 ∉ n →
    (Selects fs (fullname m n) ↔ n ∈ names)

/-- It is false: `testcase=["test_a"]` also runs `my_test_a`. -/
theorem C87_testcase_counterexample : ¬ C87_testcase_full := by
  intro hall
  let a : TestArgs := { argsEx with testcase := some (.names [lit "test_a"]), testFilter := none }
  let h := hostEx fun k => if k = lit "PATH" then some (lit "/b") else none
  have henv : ∃ env, testEnv h a (fun _ => none) = .ok env := ⟨_, rfl⟩
  obtain ⟨env, he⟩ := henv
  obtain ⟨fs, hfs, hs⟩ := C87_selected_iff he [lit "test_a"] rfl (by decide) rfl (by decide) (by decide) (by decide)
  have := (hall h a _ env [lit "test_a"] fs (lit "m") (lit "my_test_a") he rfl rfl (by decide) (by decide) (by decide)
    hfs (by decide)).mp ((hs _).mpr ⟨lit "test_a", by decide, lit "m", lit "my_", [], by decide, by decide, .inl rfl⟩)
  exact absurd this (by decide)

/-- Every test of one of the names is run; a test that is run has a full name that ends in one of the names; and exactly
the tests of these names are run if no name is the end of another test's full name. -/
theorem C87_testcase_partial {h : Host} {a : TestArgs} {old env : Environ} (he : testEnv h a old = .ok env)
    (names : List Text) (hn : a.testcase.map Testcase.list = some names) (hne : names ≠ [])
    (hf : a.testFilter = none) (h1 : h.environ (lit "COCOTB_TEST_FILTER") = none)
    (h2 : h.environ (lit "COCOTB_TESTCASE") = none) (h3 : a.extraEnv (lit "COCOTB_TESTCASE") = none)
    {fs : List Text} (hfs : filters env = .ok fs) (m n : Text) :
    (n ∈ names → Selects fs (fullname m n)) ∧
    (10 ∉ fullname m n → Selects fs (fullname m n) → ∃ k ∈ names, k <:+ fullname m n) ∧
    (10 ∉ fullname m n → (∀ k ∈ names, k <:+ fullname m n → k = n) → (Selects fs (fullname m n) ↔ n ∈ names)) := by
  obtain ⟨fs', hfs', hs⟩ := C87_selected_iff he names hn hne hf h1 h2 h3
  rw [hfs] at hfs'
  cases hfs'
  have i1 : n ∈ names → Selects fs (fullname m n) := fun hm =>
    (hs _).mpr ⟨n, hm, m, [], [], by simp [fullname], by simp, .inl rfl⟩
  have i2 : 10 ∉ fullname m n → Selects fs (fullname m n) → ∃ k ∈ names, k <:+ fullname m n := by
    intro h10 hsel
    obtain ⟨k, hk, x, b, e, hfull, hb, hend⟩ := (hs _).mp hsel
    rcases hend with rfl | rfl
    · exact ⟨k, hk, x ++ lit "." ++ b, by simp [hfull]⟩
    · exact absurd (by rw [hfull]; simp) h10
  refine ⟨i1, i2, fun h10 hsuf => ⟨fun hsel => ?_, i1⟩⟩
  obtain ⟨k, hk, hks⟩ := i2 h10 hsel
  exact hsuf k hk hks ▸ hk

/-- Names given as one text are separated by commas, and blanks around them do not matter. -/
example : (Testcase.text (lit "test_a, test_b,")).list = [lit "test_a", lit "test_b"] := by decide +kernel

example : ∃ env fs, testEnv (hostEx fun k => if k = lit "PATH" then some (lit "/b") else none)
    { argsEx with testcase := some (.text (lit "test_a, b.c")), testFilter := none } (fun _ => none) = .ok env ∧
    filters env = .ok fs ∧ Selects fs (fullname (lit "m") (lit "b.c")) := by
  let a : TestArgs := { argsEx with testcase := some (.text (lit "test_a, b.c")), testFilter := none }
  let h := hostEx fun k => if k = lit "PATH" then some (lit "/b") else none
  have henv : ∃ env, testEnv h a (fun _ => none) = .ok env := ⟨_, rfl⟩
  obtain ⟨env, he⟩ := henv
  have hl : (Testcase.text (lit "test_a, b.c")).list = [lit "test_a", lit "b.c"] := by decide +kernel
  obtain ⟨fs, hfs, hs⟩ := C87_selected_iff he [lit "test_a", lit "b.c"] (congrArg some hl) (by decide) rfl (by decide)
    (by decide) (by decide)
  exact ⟨env, fs, he, hfs, (hs _).mpr ⟨lit "b.c", by decide, lit "m", [], [], by decide, by decide, .inl rfl⟩⟩

/-! ### C88: literals and words the runner writes are read back as the value -/

/-- A SystemVerilog string literal has the value it was made from. -/
theorem C88_sv_string (v : Text) : svString (svEscapeString v) = some v := svString_escape v

/-- The full statement for `as_sv_literal`: its result is a literal with the value. -/
def C88_sv_literal_full : Prop :=
  ∀ v l x, svValue v = some x → asSvLiteral v = .ok l → svLiteral l = some x

/-- It is false of the empty LogicArray, which becomes `0'b`. -/
theorem C88_sv_literal_counterexample : ¬ C88_sv_literal_full := fun h =>
  absurd (h (.logic []) (lit "0'b") (.bits []) rfl (by decide +kernel)) (by decide +kernel)

/-- It holds of everything else. -/
theorem C88_sv_literal_partial (v : Value) (l : Text) (x : HdlVal) (hx : svValue v = some x)
    (hl : asSvLiteral v = .ok l) (hv : v ≠ .logic []) : svLiteral l = some x := by
  cases v with
  | bool b =>
    cases hx; cases hl
    cases b <;> decide +kernel
  | int i => cases hx; cases hl; exact svLiteral_int i
  | float t => cases hx
  | logic cs =>
    cases hx
    simp only [asSvLiteral] at hl
    split at hl
    · cases hl
    · rename_i hc
      cases hl
      refine svLiteral_bits cs (fun e => hv (by rw [e])) fun c h => ?_
      simp only [List.any_eq_true, not_exists, not_and, Bool.not_eq_true', decide_eq_false_iff_not,
        Decidable.not_not] at hc
      exact hc c h
  | str t => cases hx; cases hl; exact svLiteral_string t
  | other => cases hx

/-- A value with a character that SystemVerilog does not have is refused. -/
theorem C88_sv_refused (cs : Text) (c : Nat) (hc : c ∈ cs) (h : c ∉ lit "01XZ") :
    asSvLiteral (.logic cs) = .error .valueError := by
  simp only [asSvLiteral]
  rw [if_pos]
  rw [List.any_eq_true]
  exact ⟨c, hc, by simp [h]⟩

example : asSvLiteral (.logic (lit "01XZ")) = .ok (lit "4'b01XZ") ∧
    asSvLiteral (.str (lit "a\"b\n")) = .ok (lit "\"a\\\"b\\n\"") := by decide +kernel

/-- The full statement for `as_vhdl_literal`: values with the same literal are equal. -/
def C88_vhdl_literal_full : Prop :=
  ∀ v w l, asVhdlLiteral v = .ok l → asVhdlLiteral w = .ok l → v = w

/-- It is false: `LogicArray("10")` and the integer 10 get the same literal, without quotes. -/
theorem C88_vhdl_literal_counterexample : ¬ C88_vhdl_literal_full := fun h =>
  absurd (h (.logic (lit "10")) (.int 10) (lit "10") (by decide +kernel) (by decide +kernel)) (by decide)

/-- Booleans, integers and strings of graphic characters are read back. -/
theorem C88_vhdl_literal_partial :
    (∀ b, ∃ l, asVhdlLiteral (.bool b) = .ok l ∧ vhdlLiteral l = some (.boolean b)) ∧
    (∀ i, ∃ l, asVhdlLiteral (.int i) = .ok l ∧ vhdlLiteral l = some (.number i)) ∧
    (∀ t, (∀ c ∈ t, 32 ≤ c ∧ c < 127) → ∃ l, asVhdlLiteral (.str t) = .ok l ∧ vhdlLiteral l = some (.string t)) := by
  refine ⟨fun b => ⟨_, rfl, by cases b <;> decide +kernel⟩, fun i => ⟨_, rfl, vhdlLiteral_int i⟩,
    fun t h => ⟨_, rfl, vhdlLiteral_string t fun c hc => ?_⟩⟩
  have := h c hc
  simp [graphic]; omega

example : asVhdlLiteral (.str (lit "a\"b")) = .ok (lit "\"a\"\"b\"") := by decide +kernel

/-- The full statement for Tcl scripts: a value is read back as one word. -/
def C88_tcl_full : Prop := ∀ v, tclWord (asTclValue v) = some v

/-- It is false: `[`, `$` and `;` are not escaped, and an empty value vanishes. -/
theorem C88_tcl_counterexample : ¬ C88_tcl_full := fun h => absurd (h (lit "a[1]")) (by decide +kernel)

theorem C88_tcl_counterexample_var : ¬ C88_tcl_full := fun h => absurd (h (lit "a$b")) (by decide +kernel)

/-- It holds of every other value. -/
theorem C88_tcl_partial (v : Text) (hv : v ≠ []) (h : ∀ c ∈ v, c ≠ 36 ∧ c ≠ 91 ∧ c ≠ 59) :
    tclWord (asTclValue v) = some v := tclWord_value v hv h

example : tclWord (asTclValue (lit "\"C:\\a b\\{x}\n")) = some (lit "\"C:\\a b\\{x}\n") := by decide +kernel

/-! ### C89: sources are compiled in order with the arguments for their language -/

/-- The compilers are given all files: *sources*, then *vhdl_sources*, then *verilog_sources*; or none, if the product is
newer than all of them. -/
theorem C89_sources_in_order {sim : Sim} {b : Build} {out : Option Nat} {times : Times} {cmds : List Cmd}
    (h : buildCommand sim b out times = .ok cmds) :
    cmds.flatMap (·.srcs) = b.files sim ∨ (cmds = [] ∧ b.always = false ∧
      ∃ o, out = some o ∧ ∀ s ∈ b.files sim, ∃ m, times s.2 = some m ∧ m ≤ o) := by
  rcases buildCommand_cases h with h | h
  · exact .inl (fresh_ok h).1
  · exact .inr h

/-- Every tagged file keeps its tag and its place. -/
theorem C89_tags_kept {allowed : List Tag} {gs : List Given} {l : List (Tag × Text)}
    (h : setSources allowed gs = .ok l) :
    l.map (·.2) = gs.map (fun g => match g with | .path p => p | .tagged _ p => p) ∧
    ∀ t p, Given.tagged t p ∈ gs → (t, p) ∈ l ∧ t ∈ allowed := by
  induction gs generalizing l with
  | nil => cases h; simp
  | cons g gs ih =>
    cases g with
    | path q =>
      unfold setSources at h
      split at h
      · cases h
      · split at h
        · rename_i l' hl
          cases h
          obtain ⟨h1, h2⟩ := ih hl
          refine ⟨by simp [h1], fun t p hm => ?_⟩
          simp only [List.mem_cons, reduceCtorEq, false_or] at hm
          exact ⟨List.mem_cons_of_mem _ (h2 t p hm).1, (h2 t p hm).2⟩
        · cases h
    | tagged u q =>
      unfold setSources at h
      split at h
      · rename_i hu
        split at h
        · rename_i l' hl
          cases h
          obtain ⟨h1, h2⟩ := ih hl
          refine ⟨by simp [h1], fun t p hm => ?_⟩
          rcases List.mem_cons.mp hm with e | hm
          · cases e; exact ⟨List.mem_cons_self, hu⟩
          · exact ⟨List.mem_cons_of_mem _ (h2 t p hm).1, (h2 t p hm).2⟩
        · cases h
      · cases h

/-- The language of an untagged file is told by what follows the last dot in its name. -/
theorem C89_extension (dir stem ext : Text) (hs : stem ≠ []) (hs47 : 47 ∉ stem) (h46 : 46 ∉ ext) (h47 : 47 ∉ ext)
    (t : Tag) :
    fileType (dir ++ lit "/" ++ stem ++ lit "." ++ ext) = .ok t ↔
      (t = .verilog ∧ ext ∈ [lit "v", lit "sv", lit "vh", lit "svh"]) ∨ (t = .vhdl ∧ ext ∈ [lit "vhd", lit "vhdl"]) ∨
      (t = .control ∧ ext = lit "vlt") := by
  have tw : ∀ (a b : Text) (c : Nat), c ∉ a → (a ++ c :: b).takeWhile (· != c) = a := by
    intro a b c hc
    rw [List.takeWhile_append_of_pos (by intro x hx; simp; rintro rfl; exact hc hx)]
    simp
  have hsuf : suffix (dir ++ lit "/" ++ stem ++ lit "." ++ ext) = if ext ≠ [] then 46 :: ext else [] := by
    have e1 : (dir ++ lit "/" ++ stem ++ lit "." ++ ext).reverse =
        (stem ++ 46 :: ext).reverse ++ 47 :: dir.reverse := by
      have : lit "/" = [47] := rfl
      have h2 : lit "." = [46] := rfl
      simp [this, h2]
    have e2 : (stem ++ 46 :: ext).reverse = ext.reverse ++ 46 :: stem.reverse := by simp
    have hn : 47 ∉ (stem ++ 46 :: ext).reverse := by simp [hs47, h47]
    unfold suffix
    simp only [e1, tw _ _ _ hn, List.reverse_reverse]
    rw [e2, tw _ _ _ (by simpa using h46), List.reverse_reverse]
    have : 0 < stem.length := List.length_pos_iff.mpr hs
    by_cases he : ext = []
    · simp [he]
    · rw [if_pos ⟨by simp; omega, he⟩, if_pos he]
  unfold fileType
  simp only [hsuf]
  by_cases he : ext = []
  · subst he
    simp only [ne_eq, not_true, if_false]
    constructor
    · intro h
      revert h; cases t <;> decide
    · rintro (⟨_, h⟩ | ⟨_, h⟩ | ⟨_, h⟩) <;> exact absurd h (by decide)
  · have k : ∀ s, (46 :: ext = 46 :: s) = (ext = s) := fun s => by simp
    simp only [he, ne_eq, not_false_eq_true, if_true, List.mem_cons, List.not_mem_nil, or_false,
      show lit ".v" = 46 :: lit "v" from rfl, show lit ".sv" = 46 :: lit "sv" from rfl,
      show lit ".vh" = 46 :: lit "vh" from rfl, show lit ".svh" = 46 :: lit "svh" from rfl,
      show lit ".vhd" = 46 :: lit "vhd" from rfl, show lit ".vhdl" = 46 :: lit "vhdl" from rfl,
      show lit ".vlt" = 46 :: lit "vlt" from rfl, k]
    split
    · rename_i h1
      simp only [Except.ok.injEq]
      constructor
      · rintro rfl; exact .inl ⟨rfl, h1⟩
      · rintro (h | h | h)
        · exact h.1.symm
        · rcases h1 with rfl | rfl | rfl | rfl <;> exact absurd h.2 (by decide)
        · rcases h1 with rfl | rfl | rfl | rfl <;> exact absurd h.2 (by decide)
    · rename_i h1
      split
      · rename_i h2
        simp only [Except.ok.injEq]
        constructor
        · rintro rfl; exact .inr (.inl ⟨rfl, h2⟩)
        · rintro (h | h | h)
          · exact absurd h.2 h1
          · exact h.1.symm
          · rcases h2 with rfl | rfl <;> exact absurd h.2 (by decide)
      · rename_i h2
        split
        · rename_i h3
          simp only [Except.ok.injEq]
          constructor
          · rintro rfl; exact .inr (.inr ⟨rfl, h3⟩)
          · rintro (h | h | h)
            · exact absurd h.2 h1
            · exact absurd h.2 h2
            · exact h.1.symm
        · rename_i h3
          simp only [reduceCtorEq, false_iff]
          rintro (h | h | h)
          · exact h1 h.2
          · exact h2 h.2
          · exact h3 h.2

example : fileType (lit "/a.b/c.sv") = .ok .verilog ∧ fileType (lit "/a.vhd/c") = .error .valueError ∧
    fileType (lit "/a/.v") = .error .valueError := by decide

/-- A file whose name is only a dot and an extension has no extension. -/
theorem C89_extension_hidden (dir ext : Text) (h46 : 46 ∉ ext) (h47 : 47 ∉ ext) :
    fileType (dir ++ lit "/" ++ lit "." ++ ext) = .error .valueError := by
  have hsuf : suffix (dir ++ lit "/" ++ lit "." ++ ext) = [] := by
    have e1 : (dir ++ lit "/" ++ lit "." ++ ext).reverse = (46 :: ext).reverse ++ 47 :: dir.reverse := by
      have : lit "/" = [47] := rfl
      have h2 : lit "." = [46] := rfl
      simp [this, h2]
    have tw : ∀ (a b : Text) (c : Nat), c ∉ a → (a ++ c :: b).takeWhile (· != c) = a := by
      intro a b c hc
      rw [List.takeWhile_append_of_pos (by intro x hx; simp; rintro rfl; exact hc hx)]
      simp
    have hn : 47 ∉ (46 :: ext).reverse := by simp [h47]
    unfold suffix
    simp only [e1, tw _ _ _ hn, List.reverse_reverse]
    have e3 : (46 :: ext).reverse = ext.reverse ++ 46 :: [] := by simp
    rw [e3, tw _ _ _ (by simpa using h46), List.reverse_reverse]
    simp
  unfold fileType
  simp only [hsuf]
  decide

example : fileType (lit "/a/.v") = .error .valueError := C89_extension_hidden (lit "/a") (lit "v") (by decide) (by decide)

/-- Build arguments keep their place and their tag; only the two languages are accepted as tags. -/
theorem C89_build_args_kept {gs : List Given} {l : List (Option Tag × Text)} (h : setBuildArgs gs = .ok l) :
    l = gs.map (fun g => match g with | .path a => (none, a) | .tagged t a => (some t, a)) ∧
    ∀ t a, Given.tagged t a ∈ gs → t = .verilog ∨ t = .vhdl := by
  induction gs generalizing l with
  | nil => cases h; simp
  | cons g gs ih =>
    cases g with
    | path q =>
      unfold setBuildArgs at h
      split at h
      · rename_i l' hl
        cases h
        obtain ⟨h1, h2⟩ := ih hl
        refine ⟨by simp [h1], fun t p hm => ?_⟩
        simp only [List.mem_cons, reduceCtorEq, false_or] at hm
        exact h2 t p hm
      · cases h
    | tagged u q =>
      unfold setBuildArgs at h
      split at h
      · rename_i hu
        split at h
        · rename_i l' hl
          cases h
          obtain ⟨h1, h2⟩ := ih hl
          refine ⟨by simp [h1], fun t p hm => ?_⟩
          rcases List.mem_cons.mp hm with e | hm
          · cases e; simpa using hu
          · exact h2 t p hm
        · cases h
      · cases h

example : setBuildArgs [.path (lit "-q"), .tagged .vhdl (lit "-2008")] =
    .ok [(none, lit "-q"), (some .vhdl, lit "-2008")] := by decide

/-- The full statement about languages: a build with a file the simulator cannot compile is refused. -/
def C89_unsupported_refused_full : Prop :=
  ∀ sim b out times cmds, buildCommand sim b out times = .ok cmds → cmds ≠ [] → ∀ s ∈ b.files sim, sim.compiles s.1 = true

/-- A build for examples: a VHDL and a Verilog file, and arguments for each language. -/
def mixedBuild : Build :=
  { sources := [(.vhdl, lit "/a.vhd"), (.verilog, lit "/b.v")], vhdlSources := [], verilogSources := [(.verilog, lit "/c.v")],
    args := [(some .vhdl, lit "-2008"), (some .verilog, lit "-sv"), (none, lit "-q")], hasToplevel := true,
    always := false, waves := false }

/-- It is false of the QuestaQIS runner, which does not look at the tags. -/
theorem C89_unsupported_refused_counterexample : ¬ C89_unsupported_refused_full := fun h =>
  absurd (h .questaQis { mixedBuild with sources := [(.control, lit "/a.vlt")] } none (fun _ => none) _ rfl (by simp)
    (.control, lit "/a.vlt") (by decide)) (by decide)

/-- It holds of every other runner. -/
theorem C89_unsupported_refused_partial {sim : Sim} {b : Build} {out : Option Nat} {times : Times} {cmds : List Cmd}
    (h : buildCommand sim b out times = .ok cmds) (hc : cmds ≠ []) (hs : sim ≠ .questaQis) :
    ∀ s ∈ b.files sim, sim.compiles s.1 = true := by
  rcases buildCommand_cases h with h | h
  · exact (fresh_ok h).2 hs
  · exact absurd h.1 hc

/-- The full statement about build arguments: each file is compiled with the untagged arguments and those for its
language, in order. -/
def C89_args_full : Prop :=
  ∀ sim b out times cmds, buildCommand sim b out times = .ok cmds → ∀ c ∈ cmds, ∀ s ∈ c.srcs, c.args = b.argsOf s.1

/-- It is false of Xcelium, VCS and QuestaQIS, which compile all files with one command. -/
theorem C89_args_counterexample : ¬ C89_args_full := fun h =>
  absurd (h .xcelium mixedBuild none (fun _ => none) _ rfl _ List.mem_cons_self (.vhdl, lit "/a.vhd") (by decide))
    (by decide)

/-- It holds of every other runner. -/
theorem C89_args_partial {sim : Sim} {b : Build} {out : Option Nat} {times : Times} {cmds : List Cmd}
    (h : buildCommand sim b out times = .ok cmds) (hs : sim ≠ .questaQis ∧ sim ≠ .xcelium ∧ sim ≠ .vcs) :
    ∀ c ∈ cmds, ∀ s ∈ c.srcs, c.args = b.argsOf s.1 := by
  rcases buildCommand_cases h with h | h
  · exact fresh_args h hs
  · rw [h.1]; simp

example : ∃ cmds, buildCommand .questa mixedBuild none (fun _ => none) = .ok cmds ∧ cmds.map (·.args) =
    [[lit "-2008", lit "-q"], [lit "-sv", lit "-q"], [lit "-sv", lit "-q"]] := ⟨_, rfl, by decide⟩

/-- Without a given language the top level has the language of the last source. -/
theorem C89_toplevel_language {sim : Sim} {b : Build} {l : String} (h : checkLang sim b none = .ok l) :
    ∃ s ∈ (b.sources ++ b.vhdlSources ++ b.verilogSources).getLast?,
      l ∈ sim.interfaces ∧ ((∀ x ∈ b.vhdlSources, x.1 = .vhdl) → (∀ x ∈ b.verilogSources, x.1 = .verilog) →
        (l = "vhdl" ∧ s.1 = .vhdl ∨ l = "verilog" ∧ s.1 = .verilog)) := by
  unfold checkLang at h
  simp only at h
  split at h
  · cases h
  · rename_i l' hl
    split at h
    · rename_i hi
      cases h
      split at hl
      · rename_i hc
        cases hl
        obtain ⟨s, hs⟩ := Option.isSome_iff_exists.mp (by simpa using hc.1 : b.vhdlSources.getLast?.isSome = true)
        refine ⟨s, by simp [hc.2.1, hc.2.2, hs], hi, fun h1 _ => .inl ⟨rfl, h1 s (List.mem_of_getLast? hs)⟩⟩
      · split at hl
        · rename_i hc
          cases hl
          obtain ⟨s, hs⟩ := Option.isSome_iff_exists.mp (by simpa using hc.1 : b.verilogSources.getLast?.isSome = true)
          refine ⟨s, by simp [hc.2.1, hc.2.2, hs], hi, fun _ h1 => .inr ⟨rfl, h1 s (List.mem_of_getLast? hs)⟩⟩
        · split at hl
          · rename_i hc
            split at hl
            · rename_i p hs
              cases hl
              exact ⟨_, by simp [hc.2.1, hc.2.2, hs]; rfl, hi, fun _ _ => .inl ⟨rfl, rfl⟩⟩
            · rename_i p hs
              cases hl
              exact ⟨_, by simp [hc.2.1, hc.2.2, hs]; rfl, hi, fun _ _ => .inr ⟨rfl, rfl⟩⟩
            · cases hl
          · cases hl
    · cases h

example : checkLang .questa { mixedBuild with verilogSources := [] } none = .ok "verilog" := by decide

/-! ### C90: a build leaves the product of the files as they are -/

/-- A file is outdated if it is missing or some dependency is newer. -/
theorem C90_outdated_iff (out : Option Nat) (times : Times) (deps : List Text) (r : Bool)
    (h : outdated out times deps = .ok r) :
    r = true ↔ out = none ∨ ∃ o, out = some o ∧ ∃ p ∈ deps, ∃ t, times p = some t ∧ o < t := by
  unfold outdated at h
  cases out with
  | none => cases h; simp
  | some o =>
    simp only at h
    cases hn : newest times deps 0 with
    | error e => rw [hn] at h; cases h
    | ok m =>
      rw [hn] at h
      cases h
      simp only [decide_eq_true_eq, reduceCtorEq, false_or, Option.some.injEq, exists_eq_left']
      constructor
      · intro hm
        by_cases hex : ∃ p ∈ deps, ∃ t, times p = some t ∧ o < t
        · exact hex
        · exfalso
          have : m ≤ o := newest_le hn (Nat.zero_le _) fun p hp t ht => by
            by_cases hlt : o < t
            · exact absurd ⟨p, hp, t, ht, hlt⟩ hex
            · omega
          omega
      · rintro ⟨p, hp, t, ht, hlt⟩
        obtain ⟨t', ht', hle⟩ := (newest_ge hn).2 p hp
        rw [ht] at ht'
        cases ht'
        omega

/-- The full statement: after a build that did not raise, the product is that of a build in an empty directory. -/
def C90_up_to_date_full : Prop :=
  ∀ (sim : Sim) (d0 : Disk) (ops : List DiskOp) (b : Build), d0.out = none →
    (∃ cmds, buildCommand sim b ((d0.run sim ops).out.map (·.1)) (fun p => ((d0.run sim ops).files p).map (·.1)) = .ok cmds) →
    b.files sim ≠ [] → UpToDate sim (d0.run sim (ops ++ [.build b])) b

/-- A Verilog build with an argument. -/
def argBuild (arg : Text) : Build :=
  { sources := [(.verilog, lit "/b.v")], vhdlSources := [], verilogSources := [], args := [(none, arg)],
    hasToplevel := true, always := false, waves := false }

def diskEx : Disk := { now := 0, files := fun _ => some (0, 1), out := none }

/-- It is false: a build with other arguments (or defines, parameters, includes) is skipped if the files did not
change. -/
theorem C90_up_to_date_counterexample : ¬ C90_up_to_date_full := by
  intro h
  obtain ⟨cmds, hc, hd⟩ := h .icarus diskEx [.build (argBuild (lit "-DA=1"))] (argBuild (lit "-DA=2")) rfl ⟨_, rfl⟩
    (by decide)
  have : cmds = [{ tool := "iverilog", args := [lit "-DA=2"], srcs := [(.verilog, lit "/b.v")] }] := by
    have h' : fresh .icarus (argBuild (lit "-DA=2")) =
      .ok [{ tool := "iverilog", args := [lit "-DA=2"], srcs := [(.verilog, lit "/b.v")] }] := by decide
    rw [h'] at hc; cases hc; rfl
  subst this
  exact absurd (Option.some.inj hd) (by decide)

/-- It is also false if a file is written within the resolution of the clock after a build. -/
theorem C90_up_to_date_counterexample_time : ¬ C90_up_to_date_full := by
  intro h
  obtain ⟨cmds, hc, hd⟩ := h .icarus diskEx [.build (argBuild (lit "-x")), .edit (lit "/b.v") 2 0] (argBuild (lit "-x"))
    rfl ⟨_, rfl⟩ (by decide)
  have : cmds = [{ tool := "iverilog", args := [lit "-x"], srcs := [(.verilog, lit "/b.v")] }] := by
    have h' : fresh .icarus (argBuild (lit "-x")) =
      .ok [{ tool := "iverilog", args := [lit "-x"], srcs := [(.verilog, lit "/b.v")] }] := by decide
    rw [h'] at hc; cases hc; rfl
  subst this
  exact absurd (Option.some.inj hd) (by decide)

/-- It holds if all builds so far were this one, and every file is written after the clock went on. -/
theorem C90_up_to_date_partial (sim : Sim) (d0 : Disk) (ops : List DiskOp) (b : Build) (h0 : d0.out = none)
    (hb : ∀ b', .build b' ∈ ops → b' = b) (hp : ∀ p c n, .edit p c n ∈ ops → 1 ≤ n)
    (hok : ∃ cmds, buildCommand sim b ((d0.run sim ops).out.map (·.1))
      (fun p => ((d0.run sim ops).files p).map (·.1)) = .ok cmds)
    (hne : b.files sim ≠ []) : UpToDate sim (d0.run sim (ops ++ [.build b])) b := by
  have hinv : DiskInv sim b (d0.run sim ops) := diskInv_run ops (fun t i h => by rw [h0] at h; cases h) hb hp
  rw [Disk.run_concat]
  exact upToDate_of_inv hinv hok hne

/-- With *always* it holds after every history. -/
theorem C90_always (sim : Sim) (d0 : Disk) (ops : List DiskOp) (b : Build) (ha : b.always = true)
    (hok : ∃ cmds, buildCommand sim b ((d0.run sim ops).out.map (·.1))
      (fun p => ((d0.run sim ops).files p).map (·.1)) = .ok cmds)
    (hne : b.files sim ≠ []) : UpToDate sim (d0.run sim (ops ++ [.build b])) b := by
  rw [Disk.run_concat]
  obtain ⟨cmds, hc⟩ := hok
  exact upToDate_fresh hc hne fun h => by rw [h.2.1] at ha; cases ha

/-- A build that finds its product newer than all files does not run a compiler. -/
example : buildCommand .icarus (argBuild (lit "-x")) (some 3) (fun _ => some 2) = .ok [] ∧
    buildCommand .icarus (argBuild (lit "-x")) (some 3) (fun _ => some 4) ≠ .ok [] := by decide

example : UpToDate .icarus (diskEx.run .icarus [.build (argBuild (lit "-x")), .edit (lit "/b.v") 2 1,
    .build (argBuild (lit "-x"))]) (argBuild (lit "-x")) :=
  C90_up_to_date_partial .icarus diskEx [.build (argBuild (lit "-x")), .edit (lit "/b.v") 2 1] (argBuild (lit "-x")) rfl
    (by simp) (by simp; intros; omega) ⟨_, rfl⟩ (by decide)

end Verif
