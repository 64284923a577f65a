import Verif.Spec.Make
import Verif.Lemmas.Make
/-!
# C142, C143, C144: what the exit status of `make` says
-/
namespace Verif
open Make MakeSpec

namespace Make
/-- Flows with a check of the results. -/
def Flow.checks : Flow → Bool
  | .cvcInterp | .cvcCompiled | .skip => false
  | _ => true

theorem resultsRule_recipe (v : Vars) (h : v.flow.checks = true) :
    (resultsRule v).recipe = [⟨.rm, false⟩, ⟨.run, v.flow = .verilator⟩, ⟨.check, false⟩] := by
  unfold resultsRule
  cases hf : v.flow <;> simp_all [Flow.checks, simulate]

theorem resultsFile_simulate (s : St) (d : Design) (r : Nat × Runner.File) (h : s.fs .results = none) :
    (s.simulate d r).resultsFile = r.2 := by
  unfold St.simulate St.resultsFile
  cases r.2 with
  | missing => simp [h]
  | malformed => simp [St.write]
  | doc d => simp [St.write]

theorem checkCode_zero (f : Runner.File) : checkCode f = 0 ↔ ∃ failed, Failed f failed ∧ failed % 256 = 0 := by
  unfold checkCode Failed
  cases h : Runner.readResults f with
  | error e => simp
  | ok r =>
    obtain ⟨a, b⟩ := r
    simp only [Except.ok.injEq, Prod.mk.injEq]
    constructor
    · intro h; exact ⟨b, ⟨a, rfl, rfl⟩, h⟩
    · rintro ⟨b', ⟨a', h1, h2⟩, h3⟩; rw [h2]; exact h3

/-- The recipe of the results file. -/
theorem recipe_ok (w : World) (v : Vars) (i : Bool) (s : St) (h : (runLines w v [⟨.rm, false⟩, ⟨.run, i⟩, ⟨.check, false⟩] s).2 = true) :
    ∃ d code f failed, LastRun s (runLines w v [⟨.rm, false⟩, ⟨.run, i⟩, ⟨.check, false⟩] s).1 d code f ∧
      (code = 0 ∨ i = true) ∧ Failed f failed ∧ failed % 256 = 0 ∧ d = simulated v (exec w v .rm s).1 := by
  have hrm : (exec w v .rm s).2 = 0 := rfl
  have hnone : (exec w v .rm s).1.fs .results = none := by simp [exec, St.remove]
  have hlog : (exec w v .rm s).1.log = s.log := rfl
  simp only [runLines, hrm, true_or, if_true] at h ⊢
  generalize (exec w v .rm s).1 = a at hnone hlog h ⊢
  have hcode : (exec w v .run a).2 = (w.run a.clock).1 := rfl
  have hfile : (exec w v .run a).1.resultsFile = (w.run a.clock).2 := resultsFile_simulate a (simulated v a) (w.run a.clock) hnone
  have hlog' : (exec w v .run a).1.log = s.log ++ [.ran (simulated v a) (w.run a.clock).1 (w.run a.clock).2] := by
    show (a.simulate (simulated v a) (w.run a.clock)).log = _
    rw [simulate_log, hlog]
  generalize exec w v .run a = b at hcode hfile hlog' h ⊢
  obtain ⟨b, c⟩ := b
  simp only at hcode hfile hlog' h ⊢
  have hchk : exec w v .check b = ({ b with clock := b.clock + 1 }, checkCode b.resultsFile) := rfl
  rw [hchk] at h ⊢
  simp only at h ⊢
  split at h
  · rename_i hc
    rw [if_pos hc]
    split at h
    · rename_i hk
      rw [if_pos hk]
      simp only [Bool.false_eq_true, or_false] at hk
      obtain ⟨failed, h1, h2⟩ := (checkCode_zero _).1 hk
      refine ⟨simulated v a, c, b.resultsFile, failed, ⟨⟨[], ?_⟩, rfl⟩, hc, h1, h2, rfl⟩
      show b.log = _
      rw [hlog', hcode, hfile]; simp
    · cases h
  · cases h

end Make

/-- **C142** full: if `make sim` ends with status 0, the simulator was run, ended with code 0 and left results in which no test failed. -/
def C142_sim_full : Prop :=
  ∀ (w : World) (v : Vars) (s : St), v.flow ≠ .skip → (make w v .sim s).2 = true →
    ∃ d f, LastRun s (make w v .sim s).1 d 0 f ∧ Failed f 0

/-- With all simulators but CVC: the number of failed tests is a multiple of 256, and the exit code of the simulator is 0 unless it is Verilator. -/
theorem C142_sim_partial (w : World) (v : Vars) (s : St) (hf : v.flow ∉ [.skip, .cvcInterp, .cvcCompiled])
    (h : (make w v .sim s).2 = true) :
    ∃ d code f failed, LastRun s (make w v .sim s).1 d code f ∧ (code = 0 ∨ v.flow = .verilator) ∧ Failed f failed ∧ failed % 256 = 0 := by
  have hc : v.flow.checks = true := by
    cases hv : v.flow <;> simp_all [Flow.checks]
  unfold make at h ⊢
  rw [make_sim w v 5, update_succ] at h ⊢
  have hr : rule v .results = some (resultsRule v) := rfl
  rw [hr] at h ⊢
  simp only at h ⊢
  have hg := updateAll_grows w v 5 ((resultsRule v).deps ++ (resultsRule v).order) (exec w v .rm s).1
  generalize updateAll w v 5 ((resultsRule v).deps ++ (resultsRule v).order) (exec w v .rm s).1 = p at *
  have hnone : (exec w v .rm s).1.fs .results = none := by simp [exec, St.remove]
  have hm : mustRemake .results ((exec w v .rm s).1.fs .results) (resultsRule v).deps p.1 = true := by
    rw [hnone]; rfl
  rw [if_pos hm, resultsRule_recipe v hc] at h ⊢
  split at h
  · rename_i hp
    rw [if_pos hp]
    obtain ⟨d, code, f, failed, ⟨⟨es, h1⟩, h2⟩, h3, h4, h5, -⟩ := recipe_ok w v _ p.1 h
    obtain ⟨es', h6⟩ := hg
    refine ⟨d, code, f, failed, ⟨⟨es' ++ es, ?_⟩, h2⟩, ?_, h4, h5⟩
    · rw [h1, h6]; show s.log ++ es' ++ es ++ _ = _; simp [List.append_assoc]
    · simpa using h3
  · rename_i hp
    exact absurd h hp

/-! ### Counterexamples -/

namespace MakeSpec
/-- A results file of 300 tests. -/
def report (failed : Nat) : Runner.File :=
  .doc (.mk "testsuites" [] none [.mk "testsuite" [("tests", decText 300), ("failures", decText failed)] none []])

/-- Everything works, and so many tests fail. -/
def works (failed : Nat) : World := ⟨fun _ => (0, true), fun _ => (0, report failed)⟩

def vars (f : Flow) : Vars := ⟨f, 1, 0, 0, 0⟩

/-- The directory with its only source. -/
def fresh : St := stepSt (works 0) (vars .icarus) empty (.edit (.src 0) 1)

/-- The number of failed tests in the results file. -/
def failedIn (s : St) : Option Nat :=
  match Runner.readResults s.resultsFile with
  | .ok (_, n) => some n
  | .error _ => none

/-- The exit codes of the runs of the simulator. -/
def exitCodes (s : St) : List Nat := s.log.filterMap fun
  | .ran _ c _ => some c
  | _ => none

theorem report_zero : Failed (report 0) 0 := by
  have h : (match Runner.readResults (report 0) with | .ok (_, n) => decide (n = 0) | .error _ => false) = true := by decide +kernel
  revert h
  cases h' : Runner.readResults (report 0) with
  | error e => intro h; cases h
  | ok r => obtain ⟨t, n⟩ := r; intro h; have := of_decide_eq_true h; subst this; exact ⟨t, h'⟩

theorem failedIn_of (s : St) (f : Runner.File) (n : Nat) (h : s.resultsFile = f) (hf : Failed f n) : failedIn s = some n := by
  obtain ⟨t, ht⟩ := hf
  simp [failedIn, h, ht]
end MakeSpec

/-- If 256 tests fail, `make sim` ends with status 0. -/
theorem C142_sim_counterexample : ¬ C142_sim_full := by
  intro h
  have h1 : (make (works 256) (vars .icarus) .sim fresh).2 = true := by decide +kernel
  obtain ⟨d, f, ⟨-, h2⟩, h3⟩ := h (works 256) (vars .icarus) fresh (by decide) h1
  have h4 := failedIn_of _ f 0 h2 h3
  have h5 : failedIn (make (works 256) (vars .icarus) .sim fresh).1 = some 256 := by decide +kernel
  rw [h5] at h4
  cases h4

/-- With Verilator, the exit code of the simulator makes no difference. -/
theorem C142_verilator_counterexample :
    let s := make ⟨fun _ => (0, true), fun _ => (1, report 0)⟩ (vars .verilator) .sim fresh
    s.2 = true ∧ exitCodes s.1 = [1] ∧ failedIn s.1 = some 0 := by
  decide +kernel

/-- With CVC, failed tests do not matter at all, and a second `make sim` neither runs the simulator nor leaves a results file. -/
theorem C142_cvc_counterexample :
    let s := (make (works 7) (vars .cvcInterp) .sim fresh).1
    (make (works 7) (vars .cvcInterp) .sim fresh).2 = true ∧ failedIn s = some 7 ∧
    (make (works 7) (vars .cvcInterp) .sim s).2 = true ∧
    (make (works 7) (vars .cvcInterp) .sim s).1.log.length = s.log.length ∧
    ((make (works 7) (vars .cvcInterp) .sim s).1.fs .results).isNone = true ∧
    (make (works 7) (vars .cvcCompiled) .sim fresh).2 = true := by
  decide +kernel

/-- With `-j`, a second `make sim` may end with status 0 without running the simulator: the results file is seen before it is removed. -/
theorem C142_parallel_counterexample :
    let s := (make (works 0) (vars .icarus) .sim fresh).1
    (makeSimRace (works 0) (vars .icarus) s).2 = true ∧ (makeSimRace (works 0) (vars .icarus) s).1.log.length = s.log.length ∧
    ((makeSimRace (works 0) (vars .icarus) s).1.fs .results).isNone = true := by
  decide +kernel

/-- Sources in an unsupported language are skipped with status 0. -/
theorem C142_skip (w : World) (v : Vars) (s : St) (h : v.flow = .skip) :
    (make w v .sim s).2 = true ∧ (make w v .sim s).1.log = s.log ∧ (make w v .sim s).1.fs .results = none := by
  unfold make
  rw [make_sim w v 5, update_succ]
  have hr : rule v .results = some { deps := [], recipe := [⟨.echo, false⟩] } := by
    show some (resultsRule v) = _
    unfold resultsRule
    rw [h]
  rw [hr]
  simp [updateAll_nil, mustRemake, Tgt.phony, runLines, exec, St.remove]

/-! ### When everything works, make says so -/

namespace Make
/-- Compilers and simulators work, and no test fails. -/
def Works (w : World) : Prop := ∀ n, w.compile n = (0, true) ∧ (w.run n).1 = 0 ∧ Failed (w.run n).2 0

/-- The target is updated without error. -/
def OkT (w : World) (v : Vars) (n : Nat) (t : Tgt) : Prop := ∀ s, Inputs v s → (update w v n t s).2 = true

theorem inputs_of (v : Vars) (a b : St) (h : ∀ x : Tgt, x.leaf = true → b.fs x = a.fs x) (hi : Inputs v a) : Inputs v b := by
  intro t ht
  obtain ⟨m, n, h1⟩ := hi t ht
  refine ⟨m, n, ?_⟩
  rw [h t ?_, h1]
  simp only [List.mem_append] at ht
  rcases ht with (ht | ht) | ht
  · exact leaf_srcs v t ht
  · exact leaf_cdeps v t ht
  · exact leaf_sdeps v t ht

theorem okT_all (w : World) (v : Vars) (n : Nat) (ts : List Tgt) (h : ∀ t ∈ ts, OkT w v n t) (s : St) (hi : Inputs v s) :
    (updateAll w v n ts s).2 = true := by
  induction ts generalizing s with
  | nil => rfl
  | cons t ts ih =>
    have h1 := h t (List.mem_cons_self ..) s hi
    rw [updateAll_cons, if_pos h1]
    exact ih (fun t ht => h t (List.mem_cons_of_mem _ ht)) _ (inputs_of v s _ (fun x hx => update_leaf w v n t x hx s) hi)

theorem okT_rule (w : World) (v : Vars) (n : Nat) (t : Tgt) (r : Rule) (hr : rule v t = some r) (hd : ∀ d ∈ r.deps ++ r.order, OkT w v n d)
    (hl : ∀ s, (runLines w v r.recipe s).2 = true) : OkT w v (n + 1) t := by
  intro s hi
  have h1 := okT_all w v n _ hd s hi
  rw [update_succ, hr]
  simp only
  rw [if_pos h1]
  split
  · exact hl _
  · exact h1

theorem okT_leaf (w : World) (v : Vars) (n : Nat) (t : Tgt) (h : t ∈ v.srcs ++ v.cdeps ++ v.sdeps) : OkT w v (n + 1) t := by
  intro s hi
  obtain ⟨m, k, h1⟩ := hi t h
  have hl : t.leaf = true := by
    simp only [List.mem_append] at h
    rcases h with (h | h) | h
    · exact leaf_srcs v t h
    · exact leaf_cdeps v t h
    · exact leaf_sdeps v t h
  rw [update_succ, rule_leaf v t hl]
  simp [h1]

theorem okT_dir (w : World) (v : Vars) (n : Nat) : OkT w v (n + 1) .dir :=
  okT_rule w v n .dir _ rfl (by simp) (by intro s; rfl)

theorem lines_one (w : World) (v : Vars) (c : Cmd) (h : ∀ s, (exec w v c s).2 = 0) (s : St) : (runLines w v [⟨c, false⟩] s).2 = true := by
  simp [runLines, h]

theorem compile_ok (w : World) (v : Vars) (hw : Works w) (t : Tgt) (s : St) : (exec w v (.compile t) s).2 = 0 := by
  simp [exec, (hw s.clock).1]

theorem cc_ok (w : World) (v : Vars) (hw : Works w) (s : St) : (exec w v .cc s).2 = 0 := by
  simp [exec, (hw s.clock).1]

theorem compileRun_ok (w : World) (v : Vars) (hw : Works w) (s : St) : (exec w v .compileRun s).2 = 0 := by
  simp [exec, (hw s.clock).1, (hw s.clock).2.1]

theorem run_ok (w : World) (v : Vars) (hw : Works w) (s : St) : (exec w v .run s).2 = 0 := by
  simp [exec, (hw s.clock).2.1]

theorem simulate_ok (w : World) (v : Vars) (hw : Works w) (i : Bool) (s : St) :
    (runLines w v [⟨.rm, false⟩, ⟨.run, i⟩, ⟨.check, false⟩] s).2 = true := by
  have hnone : (exec w v .rm s).1.fs .results = none := by simp [exec, St.remove]
  have hrm : (exec w v .rm s).2 = 0 := rfl
  simp only [runLines, hrm, run_ok w v hw, true_or, if_true]
  have hfile := resultsFile_simulate _ (simulated v (exec w v .rm s).1) (w.run (exec w v .rm s).1.clock) hnone
  have : (exec w v .check (exec w v .run (exec w v .rm s).1).1).2 = 0 := by
    show checkCode (exec w v .run (exec w v .rm s).1).1.resultsFile = 0
    have : (exec w v .run (exec w v .rm s).1).1.resultsFile = (w.run (exec w v .rm s).1.clock).2 := hfile
    rw [this]
    exact (checkCode_zero _).2 ⟨0, (hw _).2.2, rfl⟩
  rw [this]; rfl

theorem okT_out (w : World) (v : Vars) (hw : Works w) (n : Nat) (h : (outRule v).isSome) : OkT w v (n + 3) .out := by
  have hs : ∀ t ∈ v.srcs, OkT w v (n + 1) t := fun t h => okT_leaf w v n t (by simp [h])
  have hc : ∀ t ∈ v.cdeps, OkT w v (n + 1) t := fun t h => okT_leaf w v n t (by simp [h])
  have hs' : ∀ t ∈ v.srcs, OkT w v (n + 2) t := fun t h => okT_leaf w v (n + 1) t (by simp [h])
  have hc' : ∀ t ∈ v.cdeps, OkT w v (n + 2) t := fun t h => okT_leaf w v (n + 1) t (by simp [h])
  have hd' : ∀ t ∈ v.sdeps, OkT w v (n + 2) t := fun t h => okT_leaf w v (n + 1) t (by simp [h])
  have hdir := okT_dir w v (n + 1)
  have hmk : v.flow = .verilator → OkT w v (n + 2) .mk := by
    intro hv
    refine okT_rule w v (n + 1) .mk { deps := v.srcs ++ v.cdeps, order := [.dir], recipe := [⟨.compile .mk, false⟩] } (by simp [rule, hv]) ?_
      (lines_one w v _ (compile_ok w v hw _))
    intro d hd
    simp only [List.mem_append, List.mem_singleton] at hd
    rcases hd with (hd | hd) | rfl
    · exact hs d hd
    · exact hc d hd
    · exact okT_dir w v n
  cases hr : outRule v with
  | none => rw [hr] at h; cases h
  | some r =>
    refine okT_rule w v (n + 2) .out r hr ?_ ?_
    · intro d hd
      unfold outRule at hr
      cases hf : v.flow <;> simp only [hf, Option.some.injEq, reduceCtorEq] at hr <;> subst hr <;>
        simp only [List.mem_append, List.mem_singleton, List.not_mem_nil, or_false] at hd <;> grind
    · intro s
      unfold outRule at hr
      cases hf : v.flow <;> simp only [hf, Option.some.injEq, reduceCtorEq] at hr <;> subst hr <;> apply lines_one <;> intro s <;>
        first | exact compile_ok w v hw _ s | exact cc_ok w v hw s | exact compileRun_ok w v hw s | rfl

theorem okT_analyse (w : World) (v : Vars) (hw : Works w) (n : Nat) (h : v.flow = .ghdl ∨ v.flow = .nvc) : OkT w v (n + 2) .analyse := by
  have hs : ∀ t ∈ v.srcs, OkT w v (n + 1) t := fun t h => okT_leaf w v n t (by simp [h])
  have hc : ∀ t ∈ v.cdeps, OkT w v (n + 1) t := fun t h => okT_leaf w v n t (by simp [h])
  have hdir := okT_dir w v n
  rcases h with h | h
  · refine okT_rule w v (n + 1) .analyse { deps := v.srcs ++ v.cdeps, order := [.dir], recipe := [⟨.compile .out, false⟩] } (by simp [rule, h]) ?_
      (lines_one w v _ (compile_ok w v hw _))
    intro d hd
    simp only [List.mem_append, List.mem_singleton] at hd
    grind
  · refine okT_rule w v (n + 1) .analyse { deps := v.srcs ++ [.dir] ++ v.cdeps, recipe := [⟨.compile .out, false⟩] } (by simp [rule, h]) ?_
      (lines_one w v _ (compile_ok w v hw _))
    intro d hd
    simp only [List.mem_append, List.mem_singleton, List.not_mem_nil, or_false] at hd
    grind

theorem okT_results (w : World) (v : Vars) (hw : Works w) (n : Nat) : OkT w v (n + 4) .results := by
  have hs : ∀ t ∈ v.srcs, OkT w v (n + 3) t := fun t h => okT_leaf w v (n + 2) t (by simp [h])
  have hc : ∀ t ∈ v.cdeps, OkT w v (n + 3) t := fun t h => okT_leaf w v (n + 2) t (by simp [h])
  have hd : ∀ t ∈ v.sdeps, OkT w v (n + 3) t := fun t h => okT_leaf w v (n + 2) t (by simp [h])
  have hdir := okT_dir w v (n + 2)
  have hout := okT_out w v hw n
  have han := okT_analyse w v hw (n + 1)
  refine okT_rule w v (n + 3) .results (resultsRule v) rfl ?_ ?_
  · intro d hd'
    unfold resultsRule at hd'
    unfold outRule at hout
    cases hf : v.flow <;> simp only [hf, List.mem_append, List.mem_cons, List.not_mem_nil, or_false] at hd' hout han <;> grind
  · intro s
    by_cases hk : v.flow.checks = true
    · rw [resultsRule_recipe v hk]; exact simulate_ok w v hw _ s
    · unfold resultsRule
      cases hf : v.flow <;> simp [hf, Flow.checks] at hk <;> simp [runLines, run_ok w v hw]
      rfl
end Make

/-- **C142** If the inputs are there, the compilers and the simulator work and no test fails, make ends with status 0, with every simulator. -/
theorem C142_passes (w : World) (v : Vars) (s : St) (hw : ∀ n, w.compile n = (0, true) ∧ (w.run n).1 = 0 ∧ Failed (w.run n).2 0)
    (hi : Inputs v s) : (make w v .sim s).2 = true ∧ (make w v .regression s).2 = true := by
  unfold make
  rw [make_sim w v 5, make_regression w v 6]
  refine ⟨okT_results w v hw 2 _ (inputs_of v s _ (fun x hx => exec_leaf w v .rm s x hx (by simp)) hi), okT_results w v hw 3 _ hi⟩

example : (∀ n, (works 0).compile n = (0, true) ∧ ((works 0).run n).1 = 0 ∧ Failed ((works 0).run n).2 0) ∧ Inputs (vars .icarus) fresh := by
  refine ⟨fun n => ⟨rfl, rfl, report_zero⟩, ?_⟩
  intro t ht
  simp [Vars.srcs, Vars.cdeps, Vars.sdeps, vars] at ht
  subst ht
  exact ⟨0, 1, rfl⟩

end Verif
