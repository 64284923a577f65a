import Verif.Model.Recorders
import Verif.Spec.Env
import Verif.Props.Env
/-!
# C168: coverage of user code and profiling record what is run, and write it once
-/
namespace Verif
open Env EnvSpec Recorders

namespace RecordersL

theorem fold_run (b : Bool) (cs : List Nat) : ∀ s : St, cs.foldl (runCode b) s =
    { s with ran := s.ran ++ cs, covered := if s.covering then s.covered ++ cs else s.covered,
             profiled := if b ∧ cs ≠ [] then some (s.profiled.getD [] ++ cs) else s.profiled } := by
  induction cs with
  | nil => intro s; cases s; simp
  | cons c cs ih =>
    intro s
    rw [List.foldl_cons, ih]
    obtain ⟨r, cv, co, sv, pr, du, cb⟩ := s
    cases cv <;> cases b <;> cases cs <;> simp [runCode]

theorem fold_calls (p : Start) (calls : List (List Nat)) : ∀ s : St, calls.foldl (call p) s =
    { s with ran := s.ran ++ calls.flatten, covered := if s.covering then s.covered ++ calls.flatten else s.covered,
             profiled := if p.profile ∧ calls ≠ [] then some (s.profiled.getD [] ++ calls.flatten) else s.profiled } := by
  induction calls with
  | nil => intro s; cases s; simp
  | cons c cs ih =>
    intro s
    rw [List.foldl_cons, ih]
    obtain ⟨r, cv, co, sv, pr, du, cb⟩ := s
    simp only [call, fold_run]
    cases cv <;> cases p.profile <;> cases c <;> cases cs <;> simp

end RecordersL
open RecordersL

/-- C168: coverage is switched on by COCOTB_USER_COVERAGE if that variable is set, to whatever value, and otherwise by COVERAGE. -/
theorem C168_env (U : Unicode) (hU : U.Ok) (env : Environ) (name v t : Text)
    (hn : (name = USER_COVERAGE ∧ env USER_COVERAGE = some v) ∨
      (name = COVERAGE ∧ env USER_COVERAGE = none ∧ env COVERAGE = some v)) (ht : Trimmed v t) :
    (t = [] → wantsCoverage U env = .ok false) ∧
    (t ≠ [] → ∀ b, wantsCoverage U env = .ok b ↔ Means b t) ∧
    (t ≠ [] → (∀ b, ¬ Means b t) → wantsCoverage U env = .error .valueError) := by
  have hw : wantsCoverage U env = getBool U env name none ∧ env name = some v := by
    unfold wantsCoverage
    rcases hn with ⟨rfl, h⟩ | ⟨rfl, h, h'⟩
    · simp [h]
    · simp [h, h']
  obtain ⟨hw, he⟩ := hw
  rw [hw]
  exact (C63_bool U hU env name none).2 v t he ht

/-- C168: with neither variable set, coverage is off. -/
theorem C168_env_unset (U : Unicode) (env : Environ) (h1 : env USER_COVERAGE = none) (h2 : env COVERAGE = none) :
    wantsCoverage U env = .ok false := by
  simp [wantsCoverage, h1, h2]

/-- The empty COCOTB_USER_COVERAGE wins over COVERAGE=1. -/
example : ∃ v t, Trimmed v t ∧
    (fun n => if n = USER_COVERAGE then some v else if n = COVERAGE then some (ofStr "1".toList) else none : Environ)
      USER_COVERAGE = some v ∧ t = [] :=
  ⟨[], [], ⟨[], [], by simp, by simp⟩, by simp, rfl⟩

/-- C168: all user code run while coverage is asked for is in the file. False: see the counterexample. -/
def C168_all_full : Prop := ∀ (p : Start) (calls : List (List Nat)) (cleanup : List Nat), p.coverage = true →
  ∀ c ∈ (simulate p calls cleanup).ran, ∃ f ∈ (simulate p calls cleanup).saved, c ∈ f

/-- C168: if the simulator ends the simulation while a test runs, the file is written before the test is cancelled: what the test
does to clean up is not in it. -/
theorem C168_all_counterexample : ¬ C168_all_full := by
  intro h
  have := h ⟨false, true, true, [0], false⟩ [[1], [2]] [3] rfl 3 (by decide)
  revert this
  decide

/-- C168: with profiling enabled and a simulation that ends before the simulator called cocotb once (a test that never waits, or
start-up that failed), writing the profile raises: nothing is written, and the running test is not told of the end. -/
theorem C168_lost (p : Start) (cleanup : List Nat) (hp : p.profile = true) :
    (simulate p [] cleanup).saved = [] ∧ (simulate p [] cleanup).dumped = [] ∧ (simulate p [] cleanup).ran = (start p).1.ran := by
  obtain ⟨pr, co, pk, im, sf⟩ := p
  simp only at hp
  subst hp
  cases co <;> cases pk <;> cases sf <;> simp [simulate, start, fold_run, simEnd, endCb]

/-- C168: the file has what was run before the end of the simulation, importing the test modules included, in the order it was run, and
is written once. This holds also if setting up the regression failed. Missing compared with `C168_all_full`: what is run when a
test is cancelled because the simulation ended, and the case of `C168_lost`. -/
theorem C168_all_partial (p : Start) (calls : List (List Nat)) (cleanup : List Nat) (hc : p.coverage = true)
    (hp : p.package = true) (hl : p.profile = false ∨ calls ≠ []) :
    (simulate p calls cleanup).saved = [p.startup ++ calls.flatten] ∧
    (simulate p calls cleanup).ran = p.startup ++ calls.flatten ++ (if p.setupFails then [] else cleanup) := by
  obtain ⟨pr, co, pk, im, sf⟩ := p
  simp only at hc hp hl
  subst hc hp
  cases pr <;> cases sf <;> simp_all [simulate, start, fold_calls, fold_run, simEnd, endCb]

/-- C168: if cocotb itself ended the simulation, everything run is in the file. -/
theorem C168_all_normal (p : Start) (calls : List (List Nat)) (hc : p.coverage = true) (hp : p.package = true)
    (hl : p.profile = false ∨ calls ≠ []) :
    (simulate p calls []).saved = [(simulate p calls []).ran] := by
  obtain ⟨h1, h2⟩ := C168_all_partial p calls [] hc hp hl
  rw [h1, h2]; simp

/-- C168: without coverage no file is written; asked for but without the package, the regression is not started. -/
theorem C168_off (p : Start) (calls : List (List Nat)) (cleanup : List Nat) :
    (p.coverage = false → (simulate p calls cleanup).saved = []) ∧
    (p.coverage = true → p.package = false → (start p).2 = false ∧ (simulate p calls cleanup).saved = []) := by
  obtain ⟨pr, co, pk, im, sf⟩ := p
  constructor
  · intro h
    simp only at h
    subst h
    cases pr <;> cases sf <;> by_cases hcs : calls = [] <;> simp [simulate, start, fold_calls, fold_run, simEnd, endCb, hcs]
  · intro h1 h2
    simp only at h1 h2
    subst h1 h2
    cases pr <;> by_cases hcs : calls = [] <;> simp [simulate, start, fold_calls, fold_run, simEnd, endCb, hcs]

/-- C168: the profile is written once if profiling is enabled and the simulator called cocotb, and has exactly what was run in those
calls: neither start-up nor what is run at the end; otherwise it is not written. -/
theorem C168_profile (p : Start) (calls : List (List Nat)) (cleanup : List Nat) :
    (simulate p calls cleanup).dumped = if p.profile ∧ calls ≠ [] then [calls.flatten] else [] := by
  obtain ⟨pr, co, pk, im, sf⟩ := p
  cases pr <;> cases co <;> cases pk <;> cases sf <;> by_cases hcs : calls = [] <;>
    simp [simulate, start, fold_calls, fold_run, simEnd, endCb, hcs]

/-- Both files are written before the running test is cancelled. -/
example : simulate ⟨true, true, true, [0], false⟩ [[1], [2]] [3] =
    ⟨[0, 1, 2, 3], false, [0, 1, 2], [[0, 1, 2]], some [1, 2], [[1, 2]], []⟩ := by decide

/-- A test that never waits, with profiling and coverage: coverage is still switched on and its file never written. -/
example : simulate ⟨true, true, true, [0, 1], false⟩ [] [] =
    ⟨[0, 1], true, [0, 1], [], none, [], [.coverage, .regression]⟩ := by decide

end Verif
