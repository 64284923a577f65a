import Verif.Lemmas.MakeInv
import Verif.Props.Make
/-!
# C143, C144: `make regression`, and which design is simulated, over all histories of a directory
-/
namespace Verif
open Make MakeSpec

namespace Make

theorem must_phony (deps : List Tgt) (t d : Tgt) (o : Option Entry) (s : St) (hd : d ∈ deps) (hp : d.phony = true) : mustRemake t o deps s = true := by
  unfold mustRemake
  cases o with
  | none => simp
  | some e => simp only [Bool.or_eq_true, List.any_eq_true]; exact .inr ⟨d, hd, .inl hp⟩

theorem not_must (t : Tgt) (o : Option Entry) (deps : List Tgt) (s : St) (h : mustRemake t o deps s = false) :
    ∃ e, o = some e ∧ ∀ d ∈ deps, ∃ ed, s.fs d = some ed ∧ ed.mtime ≤ e.mtime := by
  unfold mustRemake at h
  cases o with
  | none => simp at h
  | some e =>
    refine ⟨e, rfl, fun d hd => ?_⟩
    simp only [Bool.or_eq_false_iff, List.any_eq_false, Bool.not_eq_true] at h
    have h1 := (h.2 d hd).2
    cases hs : s.fs d with
    | none => rw [hs] at h1; simp at h1
    | some ed =>
      rw [hs] at h1
      simp only [decide_eq_false_iff_not] at h1
      exact ⟨ed, rfl, by omega⟩

/-- After an update, the inputs are the same. -/
theorem update_same (w : World) (v : Vars) (n : Nat) (t : Tgt) (s : St) : SameIn s (update w v n t s).1 :=
  fun x hx => update_leaf w v n t x hx s

/-- The compiled design is there and current. -/
def OutCur (v : Vars) (s : St) : Prop := ∃ e d, s.fs .out = some e ∧ e.content = .design d ∧ Cur v s d

theorem fresh_cur (v : Vars) (s : St) (d : Design) (e : Entry) (h : Fresh v s d e.mtime)
    (hn : ∀ x ∈ v.srcs ++ v.cdeps, ∃ ex, s.fs x = some ex ∧ ex.mtime ≤ e.mtime) : Cur v s d := by
  rcases h with h | ⟨x, hx, ex, h1, h2⟩
  · exact h
  · obtain ⟨ex', h3, h4⟩ := hn x hx
    rw [h1] at h3; cases h3; omega

theorem out_binary (w : World) (hw : Sane w) (v : Vars) (n : Nat) (s : St) (hi : Inv v s) (hf : v.flow.binary = true)
    (h : (update w v (n + 2) .out s).2 = true) : OutCur v (update w v (n + 2) .out s).1 := by
  have hr : ∃ r c, rule v .out = some r ∧ r.deps = v.srcs ++ v.cdeps ∧ (r.order = [] ∨ r.order = [.dir]) ∧ r.recipe = [⟨c, false⟩] ∧
      (c = .compile .out ∨ c = .compileRun) := by
    show ∃ r c, outRule v = some r ∧ _
    unfold outRule
    cases hv : v.flow <;> rw [hv] at hf <;> cases hf <;> simp
  obtain ⟨r, c, h1, h2, h3, h4, h5⟩ := hr
  obtain ⟨e, h6, h7, h8⟩ := target_update w hw v n .out r h1 (by rw [h2]; exact leaf_in v) h3 c h4 (by rcases h5 with rfl | rfl <;> simp) (.inl rfl)
    s hi.time h
  rw [h2] at h7
  have hs := update_same w v (n + 2) .out s
  rcases h8 with h8 | h8
  · obtain ⟨d, h9, h10⟩ := hi.bin hf e h8
    exact ⟨e, d, h6, h9, (Cur.of_same v s _ hs d).2 (fresh_cur v s d e h10 h7)⟩
  · rcases h8 with ⟨-, h8⟩ | ⟨h8, -⟩
    · exact ⟨e, _, h6, h8, (Cur.of_same v s _ hs _).2 ⟨rfl, rfl⟩⟩
    · rcases h5 with rfl | rfl <;> cases h8

theorem mk_keeps (w : World) (v : Vars) (hf : v.flow = .verilator) (n : Nat) (s : St) : (update w v n .mk s).1.fs .out = s.fs .out := by
  have hrm : rule v .mk = some { deps := v.srcs ++ v.cdeps, order := [.dir], recipe := [⟨.compile .mk, false⟩] } := by simp [rule, hf]
  have hrd : rule v .dir = some { deps := [], recipe := [⟨.mkdir, false⟩] } := rfl
  refine (update_keeps w v (fun t => t.leaf = true ∨ t = .mk ∨ t = .dir) (fun a b => b.fs .out = a.fs .out) (fun _ => rfl)
        (fun _ _ _ h h' => h'.trans h) ?_ ?_ n).1 .mk (.inr (.inl rfl)) s
  · intro t r ht hr d hd
    rcases ht with ht | rfl | rfl
    · rw [rule_leaf v t ht] at hr; cases hr
    · rw [hrm] at hr; cases hr
      rcases List.mem_append.1 hd with hd | hd
      · exact .inl (leaf_in v d hd)
      · exact .inr (.inr (by simpa using hd))
    · rw [hrd] at hr; cases hr; cases hd
  · intro t r ht hr l hl s
    rcases ht with ht | rfl | rfl
    · rw [rule_leaf v t ht] at hr; cases hr
    · rw [hrm] at hr; cases hr
      rw [List.mem_singleton] at hl; subst hl
      simp only [exec]
      split <;> split <;> simp [St.write]
    · rw [hrd] at hr; cases hr
      rw [List.mem_singleton] at hl; subst hl
      simp [exec, St.write]

theorem out_verilator (w : World) (hw : Sane w) (v : Vars) (n : Nat) (s : St) (hi : Inv v s) (hf : v.flow = .verilator)
    (h : (update w v (n + 3) .out s).2 = true) : OutCur v (update w v (n + 3) .out s).1 := by
  have hr : rule v .out = some { deps := [.mk], recipe := [⟨.cc, false⟩] } := by simp [rule, outRule, hf]
  have hrm : rule v .mk = some { deps := v.srcs ++ v.cdeps, order := [.dir], recipe := [⟨.compile .mk, false⟩] } := by simp [rule, hf]
  have hs := update_same w v (n + 3) .out s
  have hi' := update_inv w v (n + 2) .mk s hi
  have hs' := update_same w v (n + 2) .mk s
  have hkeep := mk_keeps w v hf (n + 2) s
  rw [update_succ, hr] at h hs ⊢
  simp only [List.append_nil, updateAll_cons, updateAll_nil] at h hs ⊢
  by_cases hm : (update w v (n + 2) .mk s).2 = true
  case neg => rw [if_neg hm, if_neg hm] at h; exact absurd h hm
  simp only [if_pos hm, if_true] at h hs ⊢
  obtain ⟨em, h6, h7, h8⟩ := target_update w hw v n .mk _ hrm (leaf_in v) (.inr rfl) _ rfl (.inl rfl) (.inr rfl) s hi.time hm
  have hmk : ∃ d, em.content = .design d ∧ Cur v s d := by
    rcases h8 with h8 | h8
    · obtain ⟨d, h9, h10⟩ := hi.made hf em h8
      exact ⟨d, h9, fresh_cur v s d em h10 h7⟩
    · rcases h8 with ⟨-, h8⟩ | ⟨h8, -⟩
      · exact ⟨_, h8, rfl, rfl⟩
      · cases h8
  obtain ⟨d, h9, h10⟩ := hmk
  generalize (update w v (n + 2) .mk s).1 = p at h hs h6 hi' hs' hkeep ⊢
  by_cases hmust : mustRemake .out (s.fs .out) [.mk] p = true
  · simp only [if_pos hmust, runLines, Bool.false_eq_true, or_false] at h hs ⊢
    by_cases h0 : (exec w v .cc p).2 = 0
    case neg => rw [if_neg h0] at h; cases h
    simp only [if_pos h0] at hs ⊢
    have h1 : (w.compile p.clock).2 = true := (hw _).1 h0
    obtain ⟨m, c⟩ := em
    simp only at h9
    subst h9
    have h11 : (exec w v .cc p).1.fs .out = some ⟨p.clock, .design d⟩ := by
      simp only [exec, h6, h1, if_true, St.write]
    exact ⟨_, d, h11, rfl, (Cur.of_same v s _ hs d).2 h10⟩
  · have hmust' : mustRemake .out (s.fs .out) [.mk] p = false := by simpa using hmust
    simp only [if_neg hmust]
    obtain ⟨e, h11, h12⟩ := not_must _ _ _ _ hmust'
    obtain ⟨em', h13, h14⟩ := h12 .mk (by simp)
    rw [h6] at h13; cases h13
    have hout : p.fs .out = some e := by rw [hkeep, h11]
    obtain ⟨d', h15, h16⟩ := hi'.cc hf e hout
    rcases h16 em h6 with h17 | h17
    · rw [h9] at h17; cases h17
      exact ⟨e, d, hout, h15, (Cur.of_same v s p hs' d).2 h10⟩
    · omega

/-- `analyse` compiles everything, each time. -/
theorem out_library (w : World) (hw : Sane w) (v : Vars) (n : Nat) (s : St) (hf : v.flow.library = true)
    (h : (update w v (n + 1) .analyse s).2 = true) :
    ∃ e, (update w v (n + 1) .analyse s).1.fs .out = some e ∧ e.content = .design (current v s) := by
  have hr : ∃ r, rule v .analyse = some r ∧ r.recipe = [⟨.compile .out, false⟩] := by
    cases hv : v.flow <;> simp [hv, Flow.library] at hf <;> simp [rule, hv]
  obtain ⟨r, h1, h2⟩ := hr
  rw [update_succ, h1] at h ⊢
  simp only at h ⊢
  have hs : SameIn s (updateAll w v n (r.deps ++ r.order) s).1 := fun x hx => updateAll_leaf w v n _ x hx s
  generalize updateAll w v n (r.deps ++ r.order) s = p at h hs ⊢
  by_cases hp : p.2 = true
  case neg => rw [if_neg hp] at h; exact absurd h hp
  have hm : mustRemake .analyse (s.fs .analyse) r.deps p.1 = true := rfl
  simp only [if_pos hp, if_pos hm, h2, runLines, Bool.false_eq_true, or_false] at h ⊢
  by_cases h0 : (exec w v (.compile .out) p.1).2 = 0
  case neg => rw [if_neg h0] at h; cases h
  rw [if_pos h0]
  have h4 : (w.compile p.1.clock).1 = 0 := h0
  have h5 := (hw p.1.clock).1 h4
  refine ⟨⟨p.1.clock, .design (current v s)⟩, ?_, rfl⟩
  rw [← current_same v s p.1 hs]
  simp [exec, h4, h5, St.write, current, version]

/-- When the prerequisites of the results have been updated, what is to be simulated is current. -/
theorem deps_cur (w : World) (hw : Sane w) (v : Vars) (hf : v.flow.checks = true) (n : Nat) (s : St) (hi : Inv v s)
    (h : (updateAll w v (n + 3) ((resultsRule v).deps ++ (resultsRule v).order) s).2 = true) :
    Cur v (updateAll w v (n + 3) ((resultsRule v).deps ++ (resultsRule v).order) s).1
      (simulated v (updateAll w v (n + 3) ((resultsRule v).deps ++ (resultsRule v).order) s).1) := by
  have hi' := updateAll_inv w v (n + 3) ((resultsRule v).deps ++ (resultsRule v).order) s hi
  by_cases hsd : v.flow.script = true ∨ v.flow.direct = true
  · exact simulated_cur v _ hi' hsd
  have hst : v.flow.staged = true := by
    cases hv : v.flow <;> simp [hv, Flow.checks, Flow.script, Flow.direct] at hf hsd <;> rfl
  suffices hO : OutCur v (updateAll w v (n + 3) ((resultsRule v).deps ++ (resultsRule v).order) s).1 by
    obtain ⟨e, d, h1, h2, h3⟩ := hO
    have := simulated_staged v _ hi' hst e h1
    rw [h2] at this; cases this
    exact h3
  have hd : ∃ t, (resultsRule v).deps ++ (resultsRule v).order = t :: v.sdeps ∧
      ((update w v (n + 3) t s).2 = true → OutCur v (update w v (n + 3) t s).1) := by
    by_cases hv : v.flow = .verilator
    · exact ⟨.out, by simp [resultsRule, hv], out_verilator w hw v n s hi hv⟩
    by_cases hl : v.flow.library = true
    · refine ⟨.analyse, ?_, fun h => ?_⟩
      · unfold resultsRule
        cases hv' : v.flow <;> simp [hv', Flow.library] at hl <;> simp
      · obtain ⟨e, h1, h2⟩ := out_library w hw v (n + 2) s hl h
        exact ⟨e, _, h1, h2, (Cur.of_same v s _ (update_same w v (n + 3) .analyse s) _).2 ⟨rfl, rfl⟩⟩
    · refine ⟨.out, ?_, out_binary w hw v (n + 1) s hi ?_⟩
      · unfold resultsRule
        cases hv' : v.flow <;> simp [hv', Flow.library, Flow.checks, Flow.staged] at hl hv hf hst <;> simp
      · cases hv' : v.flow <;> simp [hv', Flow.library, Flow.checks, Flow.staged] at hl hv hf hst <;> rfl
  obtain ⟨t, h1, h2⟩ := hd
  rw [h1, updateAll_cons] at h ⊢
  by_cases ht : (update w v (n + 3) t s).2 = true
  case neg => rw [if_neg ht] at h; exact absurd h ht
  rw [if_pos ht, updateAll_leaves w v (n + 2) v.sdeps (leaf_sdeps v)]
  exact h2 ht

/-- What is simulated after `rm` is what is simulated before. -/
theorem simulated_rm (w : World) (v : Vars) (s : St) : simulated v (exec w v .rm s).1 = simulated v s := by
  have h1 : (exec w v .rm s).1.fs .out = s.fs .out := by simp [exec, St.remove]
  have h2 : current v (exec w v .rm s).1 = current v s :=
    current_same v s _ (fun x hx => exec_leaf w v .rm s x hx (by simp))
  unfold simulated
  rw [h1, h2]

theorem recipe_same (w : World) (v : Vars) (i : Bool) (s : St) : SameIn s (runLines w v [⟨.rm, false⟩, ⟨.run, i⟩, ⟨.check, false⟩] s).1 :=
  fun x hx => runLines_keeps w v (fun a b => b.fs x = a.fs x) (fun _ => rfl) (fun _ _ _ h h' => h'.trans h) _
    (fun l hl s => exec_leaf w v l.cmd s x hx (by
      simp only [List.mem_cons, List.not_mem_nil, or_false] at hl
      rcases hl with rfl | rfl | rfl <;> simp)) s

end Make

/-! ### What is simulated -/

/-- **C144** full: the last run is of the current sources, compiled with the current arguments. -/
def C144_sim_full : Prop :=
  ∀ (w : World) (v : Vars) (h : List Step), Sane w → v.flow ∉ [.skip, .cvcInterp, .cvcCompiled] → (∀ x ∈ h, x.ok = true) →
    let s := h.foldl (stepSt w v) empty
    (make w v .sim s).2 = true → ∃ d code f, LastRun s (make w v .sim s).1 d code f ∧
      d.srcs = v.srcs.map (version s) ∧ d.cdeps = v.cdeps.map (version s) ∧ d.args = v.args

/-- The sources and CUSTOM_COMPILE_DEPS are the current ones, after every history; the arguments are if the simulator has no separate compilation
step that is left out. -/
theorem C144_sim_partial (w : World) (v : Vars) (h : List Step) (hw : Sane w) (hf : v.flow ∉ [.skip, .cvcInterp, .cvcCompiled])
    (hok : ∀ x ∈ h, x.ok = true) :
    let s := h.foldl (stepSt w v) empty
    (make w v .sim s).2 = true → ∃ d code f, LastRun s (make w v .sim s).1 d code f ∧
      d.srcs = v.srcs.map (version s) ∧ d.cdeps = v.cdeps.map (version s) ∧
      (v.flow ∈ [.ghdl, .nvc, .xcelium, .ius, .questaQrun] → d.args = v.args) := by
  intro s hmake
  have hc : v.flow.checks = true := by
    cases hv : v.flow <;> simp_all [Flow.checks]
  have hi : Inv v s := Inv.history w v h hok
  have hi1 : Inv v (exec w v .rm s).1 := exec_inv w v .rm s (by cases hv : v.flow <;> simp [Flow.cmds]) hi
  have hsame1 : SameIn s (exec w v .rm s).1 := fun x hx => exec_leaf w v .rm s x hx (by simp)
  unfold make at hmake ⊢
  rw [make_sim w v 5, update_succ] at hmake ⊢
  have hr : rule v .results = some (resultsRule v) := rfl
  rw [hr] at hmake ⊢
  simp only at hmake ⊢
  have hg := updateAll_grows w v 5 ((resultsRule v).deps ++ (resultsRule v).order) (exec w v .rm s).1
  have hcur := deps_cur w hw v hc 2 (exec w v .rm s).1 hi1
  have hsame2 : SameIn (exec w v .rm s).1 (updateAll w v 5 ((resultsRule v).deps ++ (resultsRule v).order) (exec w v .rm s).1).1 :=
    fun x hx => updateAll_leaf w v 5 _ x hx _
  have hargs : (updateAll w v 5 ((resultsRule v).deps ++ (resultsRule v).order) (exec w v .rm s).1).2 = true →
      v.flow ∈ [.ghdl, .nvc, .xcelium, .ius, .questaQrun] →
      (simulated v (updateAll w v 5 ((resultsRule v).deps ++ (resultsRule v).order) (exec w v .rm s).1).1).args = v.args := by
    intro hp hm
    by_cases hl : v.flow.library = true
    · have hd : (resultsRule v).deps ++ (resultsRule v).order = .analyse :: v.sdeps := by
        unfold resultsRule
        cases hv' : v.flow <;> simp [hv', Flow.library] at hl <;> simp
      have hi2 := updateAll_inv w v 5 ((resultsRule v).deps ++ (resultsRule v).order) _ hi1
      rw [hd, updateAll_cons] at hp hi2 ⊢
      by_cases ht : (update w v 5 .analyse (exec w v .rm s).1).2 = true
      case neg => rw [if_neg ht] at hp; exact absurd hp ht
      rw [if_pos ht, updateAll_leaves w v 4 v.sdeps (leaf_sdeps v)] at hi2 ⊢
      obtain ⟨e, h1, h2⟩ := out_library w hw v 4 _ hl ht
      have := simulated_staged v _ hi2 (by cases hv' : v.flow <;> simp [hv', Flow.library] at hl <;> rfl) e h1
      rw [h2] at this
      simp only [Content.design.injEq] at this
      rw [← this]; rfl
    · unfold simulated
      cases hv' : v.flow <;> simp [hv', Flow.library] at hl hm <;> rfl
  generalize updateAll w v 5 ((resultsRule v).deps ++ (resultsRule v).order) (exec w v .rm s).1 = p at hmake hg hcur hsame2 hargs ⊢
  have hnone : (exec w v .rm s).1.fs .results = none := by simp [exec, St.remove]
  have hm : mustRemake .results ((exec w v .rm s).1.fs .results) (resultsRule v).deps p.1 = true := by
    rw [hnone]; rfl
  rw [if_pos hm, resultsRule_recipe v hc] at hmake ⊢
  by_cases hp : p.2 = true
  case neg => rw [if_neg hp] at hmake; exact absurd hmake hp
  rw [if_pos hp] at hmake ⊢
  obtain ⟨d, code, f, failed, ⟨⟨es, h1⟩, h2⟩, h3, h4, h5, h6⟩ := recipe_ok w v _ p.1 hmake
  obtain ⟨es', h7⟩ := hg
  rw [simulated_rm] at h6
  have h8 := hcur hp
  rw [← h6, Cur.of_same v _ _ hsame2, Cur.of_same v _ _ hsame1] at h8
  refine ⟨d, code, f, ⟨⟨es' ++ es, ?_⟩, h2⟩, h8.1, h8.2, fun hm => by rw [h6]; exact hargs hp hm⟩
  rw [h1, h7]; show s.log ++ es' ++ es ++ _ = _; simp [List.append_assoc]

namespace MakeSpec
/-- The arguments of the designs that were simulated. -/
def ranArgs (s : St) : List Nat := s.log.filterMap fun
  | .ran d _ _ => some d.args
  | _ => none

/-- The sources of the design the results are of. -/
def resultsOf (s : St) : Option (List Nat) :=
  match s.fs .results with
  | some ⟨_, .xml _ d⟩ => some d.srcs
  | _ => none

theorem works_sane (n : Nat) : Sane (works n) := fun _ => ⟨fun _ => rfl, fun _ => rfl⟩
end MakeSpec

/-- Arguments are changed (from 1 to 0), but the design is not compiled again. -/
theorem C144_sim_counterexample : ¬ C144_sim_full := by
  intro h
  have h1 := h (works 0) (vars .icarus) [.edit (.src 0) 1, .make 1 .sim] (works_sane 0) (by decide) (by decide)
  have h2 : (make (works 0) (vars .icarus) .sim ([Step.edit (.src 0) 1, .make 1 .sim].foldl (stepSt (works 0) (vars .icarus)) empty)).2 = true := by
    decide +kernel
  obtain ⟨d, code, f, ⟨⟨es, h3⟩, -⟩, -, -, h4⟩ := h1 h2
  have h5 : ranArgs (make (works 0) (vars .icarus) .sim
      ([Step.edit (.src 0) 1, .make 1 .sim].foldl (stepSt (works 0) (vars .icarus)) empty)).1 = [1, 1] := by
    decide +kernel
  have h6 := congrArg List.getLast? h5
  simp only [ranArgs] at h6
  rw [h3, List.filterMap_append] at h6
  simp [h4, vars] at h6

/-- Two edits and a clean between runs. -/
example : (make (works 0) (vars .icarus) .sim ([Step.edit (.src 0) 1, .make 1 .sim, .edit (.src 0) 2, .make 1 .regression, .clean,
    .edit (.src 0) 3].foldl (stepSt (works 0) (vars .icarus)) empty)).2 = true := by decide +kernel

/-! ### `make regression` -/

namespace Make

/-- Nothing but compilation. -/
def Compiles (a b : St) : Prop := b.fs .results = a.fs .results ∧ ∃ es, b.log = a.log ++ es ∧ ∀ e ∈ es, ∃ d, e = .compiled d

theorem Compiles.refl (s : St) : Compiles s s := ⟨rfl, [], by simp, by simp⟩
theorem Compiles.trans (a b c : St) : Compiles a b → Compiles b c → Compiles a c := by
  rintro ⟨h1, es, h2, h3⟩ ⟨h4, es', h5, h6⟩
  refine ⟨h4.trans h1, es ++ es', by rw [h5, h2, List.append_assoc], ?_⟩
  intro e he
  rcases List.mem_append.1 he with he | he
  · exact h3 e he
  · exact h6 e he

theorem exec_compiles (w : World) (v : Vars) (c : Cmd) (s : St) (hc : c ∈ [.mkdir, .compile .out, .compile .mk, .cc, .script]) :
    Compiles s (exec w v c s).1 := by
  simp only [List.mem_cons, List.not_mem_nil, or_false] at hc
  have hcomp : ∀ t, t ≠ .results → Compiles s (exec w v (.compile t) s).1 := by
    intro t ht
    refine ⟨?_, if (w.compile s.clock).1 = 0 then [.compiled (current v s)] else [], ?_, ?_⟩
    · simp only [exec]; split <;> split <;> simp [St.write, ht.symm]
    · simp only [exec]; split <;> split <;> simp [St.write]
    · intro e he; split at he
      · exact ⟨_, by simpa using he⟩
      · cases he
  rcases hc with rfl | rfl | rfl | rfl | rfl
  · exact ⟨by simp [exec, St.write], [], by simp [exec, St.write], by simp⟩
  · exact hcomp _ (by simp)
  · exact hcomp _ (by simp)
  · refine ⟨?_, [], ?_, by simp⟩
    · simp only [exec]; cases s.fs .mk with
      | none => rfl
      | some e => simp only; split <;> simp [St.write]
    · simp only [exec]; cases s.fs .mk with
      | none => simp
      | some e => simp only; split <;> simp [St.write]
  · exact ⟨by simp [exec, St.write], [], by simp [exec, St.write], by simp⟩

/-- Updating the prerequisites of the results runs no simulation. -/
theorem deps_compile (w : World) (v : Vars) (hf : v.flow ≠ .cvcInterp) (n : Nat) (s : St) :
    Compiles s (updateAll w v n ((resultsRule v).deps ++ (resultsRule v).order) s).1 := by
  refine (update_keeps w v (fun t => t.leaf = true ∨ t = .dir ∨ t = .mk ∨ t = .out ∨ t = .analyse) Compiles Compiles.refl Compiles.trans ?_ ?_ n).2 _ ?_ s
  · intro t r ht hr d hd
    rcases ht with ht | rfl | rfl | rfl | rfl
    · rw [rule_leaf v t ht] at hr; cases hr
    · simp only [rule, Option.some.injEq] at hr; subst hr; cases hd
    · simp only [rule] at hr
      have h1 := leaf_srcs v d; have h2 := leaf_cdeps v d
      cases hv : v.flow <;> simp only [hv, Option.some.injEq, reduceCtorEq] at hr <;> subst hr <;>
        simp only [List.mem_append, List.mem_singleton] at hd <;> grind
    · simp only [rule, outRule] at hr
      have h1 := leaf_srcs v d; have h2 := leaf_cdeps v d; have h3 := leaf_sdeps v d
      cases hv : v.flow <;> simp only [hv, Option.some.injEq, reduceCtorEq] at hr <;> subst hr <;>
        simp only [List.mem_append, List.mem_singleton, List.not_mem_nil, or_false] at hd <;> grind
    · simp only [rule] at hr
      have h1 := leaf_srcs v d; have h2 := leaf_cdeps v d
      cases hv : v.flow <;> simp only [hv, Option.some.injEq, reduceCtorEq] at hr <;> subst hr <;>
        simp only [List.mem_append, List.mem_singleton, List.not_mem_nil, or_false] at hd <;> grind
  · intro t r ht hr l hl s
    refine exec_compiles w v l.cmd s ?_
    rcases ht with ht | rfl | rfl | rfl | rfl
    · rw [rule_leaf v t ht] at hr; cases hr
    · simp only [rule, Option.some.injEq] at hr; subst hr; simp at hl; subst hl; simp
    · simp only [rule] at hr
      cases hv : v.flow <;> simp only [hv, Option.some.injEq, reduceCtorEq] at hr <;> subst hr <;> simp at hl <;> subst hl <;> simp
    · simp only [rule, outRule] at hr
      cases hv : v.flow <;> simp only [hv, Option.some.injEq, reduceCtorEq] at hr <;> subst hr <;> simp at hl <;> subst hl <;> simp [hv] at hf ⊢
    · simp only [rule] at hr
      cases hv : v.flow <;> simp only [hv, Option.some.injEq, reduceCtorEq] at hr <;> subst hr <;> simp at hl <;> subst hl <;> simp
  · intro t ht
    have h1 := leaf_srcs v t; have h2 := leaf_cdeps v t; have h3 := leaf_sdeps v t
    unfold resultsRule at ht
    cases hv : v.flow <;> simp only [hv, List.mem_append, List.mem_cons, List.not_mem_nil, or_false, false_or] at ht <;> grind

end Make

/-- **C143** full: if `make regression` ends with status 0, the results are there, and no test failed. -/
def C143_full : Prop :=
  ∀ (w : World) (v : Vars) (h : List Step), Sane w → v.flow ∉ [.skip, .cvcInterp, .cvcCompiled] → (∀ x ∈ h, x.ok = true) →
    let s := h.foldl (stepSt w v) empty
    (make w v .regression s).2 = true → Failed (make w v .regression s).1.resultsFile 0

/-- A second `make regression` after one that failed ends with status 0. -/
theorem C143_counterexample : ¬ C143_full := by
  intro h
  have h1 := h (works 7) (vars .icarus) [.edit (.src 0) 1, .make 0 .regression] (works_sane 7) (by decide) (by decide)
  have h2 := failedIn_of _ _ 0 rfl (h1 (by decide +kernel))
  have h3 : failedIn (make (works 7) (vars .icarus) .regression
      ([Step.edit (.src 0) 1, .make 0 .regression].foldl (stepSt (works 7) (vars .icarus)) empty)).1 = some 7 := by decide +kernel
  rw [h3] at h2
  cases h2

/-- The first of them does fail. -/
example : (make (works 7) (vars .icarus) .regression fresh).2 = false := by decide +kernel

/-- Otherwise: the simulator was run, with the verdict of **C142**, or nothing but compilation happened and the results file is left as it was, not
older than its prerequisites. With GHDL and NVC the simulator is always run. -/
theorem C143_partial (w : World) (v : Vars) (s : St) (hf : v.flow ∉ [.skip, .cvcInterp, .cvcCompiled])
    (h : (make w v .regression s).2 = true) :
    (∃ d code f failed, LastRun s (make w v .regression s).1 d code f ∧ (code = 0 ∨ v.flow = .verilator) ∧ Failed f failed ∧ failed % 256 = 0) ∨
    (v.flow ∉ [.ghdl, .nvc] ∧ (make w v .regression s).1.fs .results = s.fs .results ∧
      (∃ es, (make w v .regression s).1.log = s.log ++ es ∧ ∀ e ∈ es, ∃ d, e = .compiled d) ∧
      ∃ e, s.fs .results = some e ∧ ∀ t ∈ v.sdeps, v.flow ≠ .questaQrun → v.flow ≠ .questaCompat →
        ∃ et, s.fs t = some et ∧ et.mtime ≤ e.mtime) := by
  have hc : v.flow.checks = true := by
    cases hv : v.flow <;> simp_all [Flow.checks]
  unfold make at h ⊢
  rw [make_regression w v 6, update_succ] at h ⊢
  have hr : rule v .results = some (resultsRule v) := rfl
  rw [hr] at h ⊢
  simp only at h ⊢
  have hg := deps_compile w v (by rintro h; simp [h] at hf) 6 s
  have hs : SameIn s (updateAll w v 6 ((resultsRule v).deps ++ (resultsRule v).order) s).1 := fun x hx => updateAll_leaf w v 6 _ x hx _
  generalize updateAll w v 6 ((resultsRule v).deps ++ (resultsRule v).order) s = p at h hg hs ⊢
  by_cases hp : p.2 = true
  case neg => rw [if_neg hp] at h; exact absurd h hp
  rw [if_pos hp] at h ⊢
  by_cases hm : mustRemake .results (s.fs .results) (resultsRule v).deps p.1 = true
  · left
    rw [if_pos hm, resultsRule_recipe v hc] at h ⊢
    obtain ⟨d, code, f, failed, ⟨⟨es, h1⟩, h2⟩, h3, h4, h5, -⟩ := recipe_ok w v _ p.1 h
    obtain ⟨-, es', h6, -⟩ := hg
    exact ⟨d, code, f, failed, ⟨⟨es' ++ es, by rw [h1, h6]; simp [List.append_assoc]⟩, h2⟩, by simpa using h3, h4, h5⟩
  · right
    have hm' : mustRemake .results (s.fs .results) (resultsRule v).deps p.1 = false := by simpa using hm
    rw [if_neg hm]
    obtain ⟨e, h1, h2⟩ := not_must _ _ _ _ hm'
    refine ⟨?_, hg.1, hg.2, e, h1, ?_⟩
    · intro hl
      refine hm (must_phony _ _ .analyse _ _ ?_ rfl)
      unfold resultsRule
      cases hv : v.flow <;> simp [hv] at hl <;> simp
    · intro t ht hq hq'
      obtain ⟨et, h3, h4⟩ := h2 t (by
        unfold resultsRule
        cases hv : v.flow <;> simp [hv, Flow.checks] at hc hq hq' <;> simp [ht])
      exact ⟨et, by rw [← hs t (leaf_sdeps v t ht)]; exact h3, h4⟩

/-- With GHDL and NVC, and whenever there is no results file, `make regression` means what `make sim` means. -/
theorem C143_runs (w : World) (v : Vars) (s : St) (hf : v.flow ∉ [.skip, .cvcInterp, .cvcCompiled]) (hx : v.flow ∈ [.ghdl, .nvc] ∨ s.fs .results = none)
    (h : (make w v .regression s).2 = true) :
    ∃ d code f failed, LastRun s (make w v .regression s).1 d code f ∧ (code = 0 ∨ v.flow = .verilator) ∧ Failed f failed ∧ failed % 256 = 0 := by
  rcases C143_partial w v s hf h with h1 | ⟨h1, -, -, e, h2, -⟩
  · exact h1
  · rcases hx with hx | hx
    · exact absurd hx h1
    · rw [hx] at h2; cases h2

/-- **C144** full: the results `make regression` leaves are of the current sources. -/
def C144_regression_full : Prop :=
  ∀ (w : World) (v : Vars) (h : List Step), Sane w → v.flow ∉ [.skip, .cvcInterp, .cvcCompiled] → (∀ x ∈ h, x.ok = true) →
    let s := h.foldl (stepSt w v) empty
    (make w v .regression s).2 = true → ∃ m f d, (make w v .regression s).1.fs .results = some ⟨m, .xml f d⟩ ∧
      d.srcs = v.srcs.map (version s) ∧ d.cdeps = v.cdeps.map (version s)

/-- In the newer flow for Questa the results do not depend on the sources. -/
theorem C144_regression_counterexample : ¬ C144_regression_full := by
  intro h
  have h1 := h (works 0) (vars .questaQrun) [.edit (.src 0) 1, .make 0 .regression, .edit (.src 0) 2] (works_sane 0) (by decide) (by decide)
  obtain ⟨m, f, d, h2, h3, -⟩ := h1 (by decide +kernel)
  have h4 : resultsOf (make (works 0) (vars .questaQrun) .regression
      ([Step.edit (.src 0) 1, .make 0 .regression, .edit (.src 0) 2].foldl (stepSt (works 0) (vars .questaQrun)) empty)).1 = some [1] := by decide +kernel
  simp only [resultsOf, h2, h3] at h4
  revert h4
  decide +kernel

namespace Make

/-- The results say which design they are of. -/
theorem recipe_xml (w : World) (v : Vars) (i : Bool) (s : St) (h : (runLines w v [⟨.rm, false⟩, ⟨.run, i⟩, ⟨.check, false⟩] s).2 = true) :
    ∃ m f, (runLines w v [⟨.rm, false⟩, ⟨.run, i⟩, ⟨.check, false⟩] s).1.fs .results = some ⟨m, .xml f (simulated v s)⟩ := by
  have hrm : (exec w v .rm s).2 = 0 := rfl
  have hnone : (exec w v .rm s).1.fs .results = none := by simp [exec, St.remove]
  rw [← simulated_rm w v s]
  simp only [runLines, hrm, true_or, if_true] at h ⊢
  generalize (exec w v .rm s).1 = a at hnone h ⊢
  split at h
  case isFalse => cases h
  rename_i hc
  rw [if_pos hc]
  have hchk : ∀ b, exec w v .check b = ({ b with clock := b.clock + 1 }, checkCode b.resultsFile) := fun _ => rfl
  simp only [hchk] at h ⊢
  split at h
  case isFalse => cases h
  rename_i hk
  rw [if_pos hk]
  simp only [Bool.false_eq_true, or_false] at hk
  obtain ⟨failed, ⟨tests, h1⟩, -⟩ := (checkCode_zero _).1 hk
  have hfs : (exec w v .run a).1.fs = (a.simulate (simulated v a) (w.run a.clock)).fs := rfl
  have hrf : (exec w v .run a).1.resultsFile = (w.run a.clock).2 := resultsFile_simulate a (simulated v a) (w.run a.clock) hnone
  rw [hrf] at h1
  simp only [hfs]
  unfold St.simulate
  generalize (w.run a.clock) = q at h1 ⊢
  obtain ⟨c, f⟩ := q
  cases f with
  | missing => exact absurd h1 (by simp [Runner.readResults])
  | malformed => exact ⟨_, _, by simp [St.write]; exact ⟨rfl, rfl⟩⟩
  | doc x => exact ⟨_, _, by simp [St.write]; exact ⟨rfl, rfl⟩⟩

/-- The inputs are not newer than results that are not to be made again. -/
theorem inputs_old (w : World) (hw : Sane w) (v : Vars) (hf : v.flow.script = true ∨ v.flow = .xcelium ∨ v.flow = .ius) (n : Nat) (s : St)
    (hi : Inv v s) (e : Entry) (hp : (updateAll w v (n + 2) ((resultsRule v).deps ++ (resultsRule v).order) s).2 = true)
    (hd : ∀ d ∈ (resultsRule v).deps, ∃ ed, (updateAll w v (n + 2) ((resultsRule v).deps ++ (resultsRule v).order) s).1.fs d = some ed ∧
      ed.mtime ≤ e.mtime) :
    ∀ x ∈ v.srcs ++ v.cdeps, ∃ ex, s.fs x = some ex ∧ ex.mtime ≤ e.mtime := by
  have hs : SameIn s (updateAll w v (n + 2) ((resultsRule v).deps ++ (resultsRule v).order) s).1 := fun x hx => updateAll_leaf w v (n + 2) _ x hx _
  have hleaf : ∀ x ∈ v.srcs ++ v.cdeps, x ∈ (resultsRule v).deps → ∃ ex, s.fs x = some ex ∧ ex.mtime ≤ e.mtime := by
    intro x hx hx'
    obtain ⟨ed, h1, h2⟩ := hd x hx'
    exact ⟨ed, by rw [← hs x (leaf_in v x hx)]; exact h1, h2⟩
  by_cases hv : v.flow = .xcelium ∨ v.flow = .ius
  · intro x hx
    refine hleaf x hx ?_
    unfold resultsRule
    rcases hv with hv | hv <;> rw [hv] <;> exact List.mem_append_left _ hx
  have hsc : v.flow.script = true := by rcases hf with h | h | h <;> simp_all
  have hr : ∃ r, rule v .out = some r ∧ (∀ d ∈ r.deps, d.leaf = true) ∧ r.order = [.dir] ∧ r.recipe = [⟨.script, false⟩] ∧
      ∀ x ∈ v.srcs ++ v.cdeps, x ∈ r.deps ∨ x ∈ (resultsRule v).deps := by
    show ∃ r, outRule v = some r ∧ _
    have h1 := leaf_srcs v; have h2 := leaf_cdeps v; have h3 := leaf_sdeps v
    unfold outRule resultsRule
    cases hv' : v.flow <;> rw [hv'] at hsc <;> cases hsc <;> simp only [Option.some.injEq, exists_eq_left', List.mem_append, List.mem_cons] <;> grind
  obtain ⟨r, h1, h2, h3, h4, h5⟩ := hr
  have hh : ∃ l, (resultsRule v).deps ++ (resultsRule v).order = .out :: l ∧ ∀ x ∈ l, x.leaf = true := by
    have h2 := leaf_cdeps v; have h3 := leaf_sdeps v
    unfold resultsRule
    cases hv' : v.flow <;> rw [hv'] at hsc <;> cases hsc <;> simp <;> grind
  have hod : .out ∈ (resultsRule v).deps := by
    unfold resultsRule
    cases hv' : v.flow <;> rw [hv'] at hsc <;> cases hsc <;> simp
  obtain ⟨l, h6, h7⟩ := hh
  obtain ⟨eo, h8, h9⟩ := hd .out hod
  rw [h6, updateAll_cons] at hp h8
  by_cases ht : (update w v (n + 2) .out s).2 = true
  case neg => rw [if_neg ht] at hp; exact absurd hp ht
  rw [if_pos ht, updateAll_leaves w v (n + 1) l h7] at h8
  obtain ⟨eo', h10, h11, -⟩ := target_update w hw v n .out r h1 h2 (.inr h3) .script h4 (.inr (.inr ⟨rfl, rfl⟩)) (.inl rfl) s hi.time ht
  simp only at h8
  rw [h10] at h8; cases h8
  intro x hx
  rcases h5 x hx with h | h
  · obtain ⟨ex, h12, h13⟩ := h11 x h
    exact ⟨ex, h12, by omega⟩
  · exact hleaf x hx h

end Make

/-- With the other flows, after every history of edits and runs, the results are of the current sources and CUSTOM_COMPILE_DEPS, whether the simulator
was run again or not. -/
theorem C144_regression_partial (w : World) (v : Vars) (h : List Step) (hw : Sane w)
    (hf : v.flow ∉ [.skip, .cvcInterp, .cvcCompiled, .questaQrun]) (hok : ∀ x ∈ h, x.ok = true) :
    let s := h.foldl (stepSt w v) empty
    (make w v .regression s).2 = true → ∃ m f d, (make w v .regression s).1.fs .results = some ⟨m, .xml f d⟩ ∧
      d.srcs = v.srcs.map (version s) ∧ d.cdeps = v.cdeps.map (version s) := by
  intro s hmake
  have hc : v.flow.checks = true := by
    cases hv : v.flow <;> simp_all [Flow.checks]
  have hi : Inv v s := Inv.history w v h hok
  unfold make at hmake ⊢
  rw [make_regression w v 6, update_succ] at hmake ⊢
  have hr : rule v .results = some (resultsRule v) := rfl
  rw [hr] at hmake ⊢
  simp only at hmake ⊢
  have hcur := deps_cur w hw v hc 3 s hi
  have hi' := updateAll_inv w v 6 ((resultsRule v).deps ++ (resultsRule v).order) s hi
  have hg := deps_compile w v (by rintro h; simp [h] at hf) 6 s
  have hs : SameIn s (updateAll w v 6 ((resultsRule v).deps ++ (resultsRule v).order) s).1 := fun x hx => updateAll_leaf w v 6 _ x hx _
  have hold := fun hf => inputs_old w hw v hf 4 s hi
  generalize updateAll w v 6 ((resultsRule v).deps ++ (resultsRule v).order) s = p at hmake hcur hi' hg hs hold ⊢
  by_cases hp : p.2 = true
  case neg => rw [if_neg hp] at hmake; exact absurd hmake hp
  rw [if_pos hp] at hmake ⊢
  have hcur := hcur hp
  by_cases hm : mustRemake .results (s.fs .results) (resultsRule v).deps p.1 = true
  · rw [if_pos hm, resultsRule_recipe v hc] at hmake ⊢
    obtain ⟨m, f, h1⟩ := recipe_xml w v _ p.1 hmake
    rw [Cur.of_same v _ _ hs] at hcur
    exact ⟨m, f, _, h1, hcur.1, hcur.2⟩
  have hm' : mustRemake .results (s.fs .results) (resultsRule v).deps p.1 = false := by simpa using hm
  rw [if_neg hm]
  obtain ⟨e, h1, h2⟩ := not_must _ _ _ _ hm'
  have h3 : p.1.fs .results = some e := hg.1.trans h1
  obtain ⟨f, d, h4, h5, h6⟩ := hi'.res e h3
  obtain ⟨m, c⟩ := e
  simp only at h4
  subst h4
  refine ⟨m, f, d, h3, ?_⟩
  by_cases hsd : v.flow.script = true ∨ v.flow = .xcelium ∨ v.flow = .ius
  · have h7 := h6 (by rcases hsd with h | h | h <;> simp [h, Flow.direct])
    have h8 : Fresh v s d m := (Fresh.of_same v _ _ hs d m).1 h7
    have h9 := fresh_cur v s d ⟨m, .xml f d⟩ h8 (hold hsd _ hp h2)
    exact h9
  · have hst : v.flow.staged = true := by
      cases hv : v.flow <;> simp [hv, Flow.script] at hf hsd <;> rfl
    by_cases hl : v.flow.library = true
    · refine absurd (must_phony _ _ .analyse _ _ ?_ rfl) hm
      unfold resultsRule
      cases hv : v.flow <;> simp [hv, Flow.library] at hl <;> simp
    · obtain ⟨eo, h7, h8⟩ := h2 .out (by
        unfold resultsRule
        cases hv : v.flow <;> simp [hv, Flow.library, Flow.staged] at hl hst hf <;> simp)
      have h9 := simulated_staged v p.1 hi' hst eo h7
      rcases h5 hst eo h7 with h10 | h10
      · rw [h9] at h10; cases h10
        rw [Cur.of_same v _ _ hs] at hcur
        exact hcur
      · simp only at h8 h10; omega

/-- Five flows, one for each way to compile, with an edit after a run, and `make regression` twice after it. -/
example : ∀ f ∈ [Flow.icarus, .verilator, .nvc, .riviera, .xcelium],
    (make (works 0) (vars f) .regression ([Step.edit (.src 0) 1, .make 1 .regression, .edit (.src 0) 2, .make 1 .regression].foldl
      (stepSt (works 0) (vars f)) empty)).2 = true ∧
    resultsOf (make (works 0) (vars f) .regression ([Step.edit (.src 0) 1, .make 1 .regression, .edit (.src 0) 2, .make 1 .regression].foldl
      (stepSt (works 0) (vars f)) empty)).1 = some [2] := by decide +kernel

end Verif
