import Verif.Spec.Runner
/-!
# Lemmas: the environment of the simulator
-/
namespace Verif.Runner
open Verif.Env

theorem setEnv_same (d : Environ) (k v : Text) : setEnv d k v k = some v := by simp [setEnv]

theorem setEnv_other (d : Environ) {j k : Text} (v : Text) (h : j ≠ k) : setEnv d k v j = d j := by simp [setEnv, h]

theorem setOpt_other (d : Environ) {j k : Text} (v : Option Text) (h : j ≠ k) : setOpt d k v j = d j := by
  cases v with
  | none => rfl
  | some v => exact setEnv_other d v h

theorem setOpt_some (d : Environ) (k v : Text) : setOpt d k (some v) k = some v := setEnv_same d k v

theorem ite_env (c : Prop) [Decidable c] (a b : Environ) (k : Text) : (if c then a else b) k = if c then a k else b k := by
  split <;> rfl

/-- The keys `_set_env_common` sets. -/
def commonKeys : List Text := ["PATH", "PYTHONPATH", "PYGPI_PYTHON_BIN", "GPI_USERS"].map lit

theorem common_other {h : Host} {env env' : Environ} (he : setEnvCommon h env = .ok env') {k : Text} (hk : k ∉ commonKeys) :
    env' k = updateEnv env h.environ k := by
  simp only [commonKeys, List.map_cons, List.map_nil, List.mem_cons, List.not_mem_nil, or_false, not_or] at hk
  unfold setEnvCommon at he
  simp only at he
  split at he
  · cases he
  · split at he
    · cases he
    · cases he
      rw [ite_env, setEnv_other _ _ hk.2.2.2, setEnv_other _ _ hk.2.2.1, setEnv_other _ _ hk.2.1,
        setEnv_other _ _ hk.1]
      split <;> rfl

/-- What the runner has put in the environment before it adds its own. -/
def argEnv (a : TestArgs) : Environ :=
  let env := setOpt a.extraEnv (lit "COCOTB_TEST_FILTER") (a.testcase.map fun t => testcaseRegex t.list)
  let env := setOpt env (lit "COCOTB_TEST_FILTER") a.testFilter
  setOpt env (lit "COCOTB_RANDOM_SEED") a.seed

/-- The keys that are set after `_set_env_common`, and those it sets. -/
def lateKeys : List Text :=
  ["COCOTB_TOPLEVEL", "COCOTB_TEST_MODULES", "TOPLEVEL_LANG", "COCOTB_TRUST_INERTIAL_WRITES", "COCOTB_RESULTS_FILE",
   "GPI_EXTRA", "COCOTB_RESULTS_ATTACHMENTS", "PATH", "PYTHONPATH", "PYGPI_PYTHON_BIN", "GPI_USERS"].map lit

theorem testEnv_get {h : Host} {a : TestArgs} {old env : Environ} (he : testEnv h a old = .ok env) {k : Text}
    (hk : k ∉ lateKeys) : env k = updateEnv (argEnv a) h.environ k := by
  simp only [lateKeys, List.map_cons, List.map_nil, List.mem_cons, List.not_mem_nil, or_false, not_or] at hk
  obtain ⟨h1, h2, h3, h4, h5, h6, h7, h8, h9, h10, h11⟩ := hk
  unfold testEnv at he
  simp only at he
  split at he
  · cases he
  · rename_i e hc
    cases he
    rw [setOpt_other _ _ h6, setEnv_other _ _ h5, ite_env, setEnv_other _ _ h4, setEnv_other _ _ h3,
      setEnv_other _ _ h2, setEnv_other _ _ h1, common_other hc (by simp [commonKeys, h8, h9, h10, h11])]
    rw [show ∀ (c : Bool) (x : Option Text), (if c then x else x) = x by intro c x; split <;> rfl]
    unfold updateEnv
    cases h.environ k with
    | some v => rfl
    | none => simp only; rw [ite_env, setEnv_other _ _ h7]; unfold argEnv; split <;> rfl

theorem testEnv_sets {h : Host} {a : TestArgs} {old env : Environ} (he : testEnv h a old = .ok env) :
    env (lit "COCOTB_TOPLEVEL") = some (a.toplevel.takeWhile (· != 45)) ∧
    env (lit "COCOTB_TEST_MODULES") = some a.modules ∧ env (lit "TOPLEVEL_LANG") = some a.lang ∧
    env (lit "COCOTB_RESULTS_FILE") = some a.resultsFile := by
  unfold testEnv at he
  simp only at he
  split at he
  · cases he
  · cases he
    refine ⟨?_, ?_, ?_, ?_⟩
    · rw [setOpt_other _ _ (by decide), setEnv_other _ _ (by decide), ite_env]
      split
      · rw [setEnv_other _ _ (by decide), setEnv_other _ _ (by decide), setEnv_other _ _ (by decide), setEnv_same]
      · rw [setEnv_other _ _ (by decide), setEnv_other _ _ (by decide), setEnv_same]
    · rw [setOpt_other _ _ (by decide), setEnv_other _ _ (by decide), ite_env]
      split
      · rw [setEnv_other _ _ (by decide), setEnv_other _ _ (by decide), setEnv_same]
      · rw [setEnv_other _ _ (by decide), setEnv_same]
    · rw [setOpt_other _ _ (by decide), setEnv_other _ _ (by decide), ite_env]
      split
      · rw [setEnv_other _ _ (by decide), setEnv_same]
      · rw [setEnv_same]
    · rw [setOpt_other _ _ (by decide), setEnv_same]

end Verif.Runner
