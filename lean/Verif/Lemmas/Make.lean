import Verif.Model.Make
/-! Lemmas about `Model/Make`. -/
namespace Verif.Make

/-- Several targets. -/
def updateAll (w : World) (v : Vars) (n : Nat) (ts : List Tgt) (s : St) : St × Bool := allOk (update w v n) ts s

theorem update_succ (w : World) (v : Vars) (n : Nat) (t : Tgt) (s : St) : update w v (n + 1) t s =
    match rule v t with
    | none => (s, (s.fs t).isSome)
    | some r =>
      let p := updateAll w v n (r.deps ++ r.order) s
      if p.2 then
        if mustRemake t (s.fs t) r.deps p.1 then runLines w v r.recipe p.1 else p
      else p := by
  rw [update]; rfl

theorem updateAll_nil (w : World) (v : Vars) (n : Nat) (s : St) : updateAll w v n [] s = (s, true) := rfl

theorem updateAll_cons (w : World) (v : Vars) (n : Nat) (t : Tgt) (ts : List Tgt) (s : St) : updateAll w v n (t :: ts) s =
    if (update w v n t s).2 then updateAll w v n ts (update w v n t s).1 else update w v n t s := by
  rw [updateAll, allOk]; rfl

/-- What every command keeps, recipes keep. -/
theorem runLines_keeps (w : World) (v : Vars) (P : St → St → Prop) (refl : ∀ s, P s s) (trans : ∀ a b c, P a b → P b c → P a c) :
    ∀ (ls : List Line), (∀ l ∈ ls, ∀ s, P s (exec w v l.cmd s).1) → ∀ s, P s (runLines w v ls s).1 := by
  intro ls
  induction ls with
  | nil => intro _ s; exact refl s
  | cons l ls ih =>
    intro h s
    have h1 := h l (List.mem_cons_self ..) s
    simp only [runLines]
    split
    · exact trans _ _ _ h1 (ih (fun l hl => h l (List.mem_cons_of_mem _ hl)) _)
    · exact h1

/-- What every command of the rules of a set of targets that is closed under prerequisites keeps, make keeps. -/
theorem update_keeps (w : World) (v : Vars) (S : Tgt → Prop) (P : St → St → Prop) (refl : ∀ s, P s s)
    (trans : ∀ a b c, P a b → P b c → P a c)
    (closed : ∀ t r, S t → rule v t = some r → ∀ d ∈ r.deps ++ r.order, S d)
    (cmds : ∀ t r, S t → rule v t = some r → ∀ l ∈ r.recipe, ∀ s, P s (exec w v l.cmd s).1) (n : Nat) :
    (∀ t, S t → ∀ s, P s (update w v n t s).1) ∧ (∀ ts, (∀ t ∈ ts, S t) → ∀ s, P s (updateAll w v n ts s).1) := by
  have list : ∀ n, (∀ t, S t → ∀ s, P s (update w v n t s).1) → ∀ ts, (∀ t ∈ ts, S t) → ∀ s, P s (updateAll w v n ts s).1 := by
    intro n hn ts
    induction ts with
    | nil => intro _ s; rw [updateAll_nil]; exact refl s
    | cons t ts ih =>
      intro h s
      rw [updateAll_cons]
      have h1 := hn t (h t (List.mem_cons_self ..)) s
      split
      · exact trans _ _ _ h1 (ih (fun t ht => h t (List.mem_cons_of_mem _ ht)) _)
      · exact h1
  have key : ∀ t, S t → ∀ s, P s (update w v n t s).1 := by
    induction n with
    | zero => intro t _ s; rw [update]; exact refl s
    | succ n ih =>
      intro t ht s
      rw [update_succ]
      cases hr : rule v t with
      | none => exact refl s
      | some r =>
        simp only
        have h1 := list n ih (r.deps ++ r.order) (closed t r ht hr) s
        split
        · split
          · exact trans _ _ _ h1 (runLines_keeps w v P refl trans r.recipe (cmds t r ht hr) _)
          · exact h1
        · exact h1
  exact ⟨key, list n key⟩

/-- The log grows only. -/
def Grows (a b : St) : Prop := ∃ es, b.log = a.log ++ es

theorem Grows.refl (s : St) : Grows s s := ⟨[], by simp⟩
theorem Grows.trans (a b c : St) : Grows a b → Grows b c → Grows a c := by
  rintro ⟨x, h⟩ ⟨y, h'⟩; exact ⟨x ++ y, by rw [h', h, List.append_assoc]⟩

theorem simulate_log (s : St) (d : Design) (r : Nat × Runner.File) : (s.simulate d r).log = s.log ++ [.ran d r.1 r.2] := by
  unfold St.simulate; cases r.2 <;> rfl

theorem exec_grows (w : World) (v : Vars) (c : Cmd) (s : St) : Grows s (exec w v c s).1 := by
  cases c with
  | compile t =>
    refine ⟨if (w.compile s.clock).1 = 0 then [.compiled (current v s)] else [], ?_⟩
    simp only [exec]
    split <;> split <;> simp [St.write]
  | cc =>
    refine ⟨[], ?_⟩
    simp only [exec]
    cases s.fs .mk with
    | none => simp
    | some e => simp only; split <;> simp [St.write]
  | run => exact ⟨[.ran (simulated v s) (w.run s.clock).1 (w.run s.clock).2], by simp [exec, simulate_log]⟩
  | compileRun =>
    simp only [exec]
    split
    · exact ⟨[.ran (current v s) (w.run s.clock).1 (w.run s.clock).2], by simp [simulate_log, St.write]⟩
    · refine ⟨[], ?_⟩; split <;> simp [St.write]
  | _ => exact ⟨[], by simp [exec, St.remove, St.write]⟩

theorem update_grows (w : World) (v : Vars) (n : Nat) (t : Tgt) (s : St) : Grows s (update w v n t s).1 :=
  (update_keeps w v (fun _ => True) Grows Grows.refl Grows.trans (fun _ _ _ _ _ _ => trivial) (fun _ _ _ _ l _ s => exec_grows w v l.cmd s) n).1
    t trivial s

theorem updateAll_grows (w : World) (v : Vars) (n : Nat) (ts : List Tgt) (s : St) : Grows s (updateAll w v n ts s).1 :=
  (update_keeps w v (fun _ => True) Grows Grows.refl Grows.trans (fun _ _ _ _ _ _ => trivial) (fun _ _ _ _ l _ s => exec_grows w v l.cmd s) n).2
    ts (fun _ _ => trivial) s

/-- Sources and other inputs. -/
def Tgt.leaf : Tgt → Bool
  | .src _ | .cdep _ | .sdep _ => true
  | _ => false

theorem rule_leaf (v : Vars) (t : Tgt) (h : t.leaf = true) : rule v t = none := by
  cases t <;> simp_all [Tgt.leaf, rule]

theorem leaf_srcs (v : Vars) (t : Tgt) (h : t ∈ v.srcs) : t.leaf = true := by
  simp only [Vars.srcs, List.mem_map] at h; obtain ⟨_, _, rfl⟩ := h; rfl
theorem leaf_cdeps (v : Vars) (t : Tgt) (h : t ∈ v.cdeps) : t.leaf = true := by
  simp only [Vars.cdeps, List.mem_map] at h; obtain ⟨_, _, rfl⟩ := h; rfl
theorem leaf_sdeps (v : Vars) (t : Tgt) (h : t ∈ v.sdeps) : t.leaf = true := by
  simp only [Vars.sdeps, List.mem_map] at h; obtain ⟨_, _, rfl⟩ := h; rfl

/-- Existing inputs are left as they are. -/
theorem updateAll_leaves (w : World) (v : Vars) (n : Nat) (ts : List Tgt) (h : ∀ t ∈ ts, t.leaf = true) (s : St) :
    updateAll w v (n + 1) ts s = (s, ts.all fun t => (s.fs t).isSome) := by
  induction ts with
  | nil => rw [updateAll_nil]; rfl
  | cons t ts ih =>
    rw [updateAll_cons, update_succ, rule_leaf v t (h t (List.mem_cons_self ..))]
    simp only
    split
    · rename_i h1
      rw [ih (fun t ht => h t (List.mem_cons_of_mem _ ht))]
      simp [h1]
    · rename_i h1
      simp [h1]

theorem updateAll_append (w : World) (v : Vars) (n : Nat) (xs ys : List Tgt) (s : St) : updateAll w v n (xs ++ ys) s =
    if (updateAll w v n xs s).2 then updateAll w v n ys (updateAll w v n xs s).1 else updateAll w v n xs s := by
  induction xs generalizing s with
  | nil => simp [updateAll_nil]
  | cons x xs ih =>
    rw [List.cons_append, updateAll_cons, updateAll_cons]
    split
    · rw [ih]
    · rename_i h; simp [h]

/-- The order of the phony targets: what `sim` and `regression` do. -/
theorem make_regression (w : World) (v : Vars) (n : Nat) (s : St) : update w v (n + 2) .regression s = update w v (n + 1) .results s := by
  have h1 : rule v .regression = some { deps := [.results] } := rfl
  rw [update_succ w v (n + 1), h1]
  simp only [List.append_nil, updateAll_cons, updateAll_nil, mustRemake, Tgt.phony, runLines]
  split
  · rename_i h
    (try simp only [ite_self]); exact Prod.ext rfl h.symm
  · rfl

theorem make_sim (w : World) (v : Vars) (n : Nat) (s : St) :
    update w v (n + 3) .sim s = update w v (n + 1) .results (exec w v .rm s).1 := by
  have h1 : rule v .sim = some { deps := [.rmResults, .regression] } := rfl
  have h2 : rule v .rmResults = some { deps := [], recipe := [⟨.rm, false⟩] } := rfl
  have h3 : update w v (n + 2) .rmResults s = ((exec w v .rm s).1, true) := by
    rw [update_succ w v (n + 1), h2]
    simp [updateAll_nil, mustRemake, Tgt.phony, runLines, exec]
  rw [update_succ w v (n + 2), h1]
  simp only [List.append_nil, updateAll_cons, updateAll_nil, h3, make_regression, runLines, if_true]
  split
  · rename_i h
    (try simp only [ite_self]); exact Prod.ext rfl h.symm
  · rfl

end Verif.Make

namespace Verif.Make

/-- Nothing is compiled into an input. -/
theorem rule_cmds (v : Vars) (t : Tgt) (r : Rule) (h : rule v t = some r) (l : Line) (hl : l ∈ r.recipe) (x : Tgt) (hx : x.leaf = true) :
    l.cmd ≠ .compile x := by
  have h1 : ∀ y : Tgt, y.leaf = false → Cmd.compile y ≠ Cmd.compile x := by
    intro y hy he; cases he; rw [hx] at hy; cases hy
  cases t <;> simp only [rule, Option.some.injEq, reduceCtorEq] at h
  case sim | regression => subst h; simp at hl
  case rmResults | dir => subst h; simp at hl; subst hl; simp
  case results =>
    subst h; unfold resultsRule at hl
    cases hf : v.flow <;> simp [hf, simulate] at hl <;> rcases hl with rfl | rfl | rfl <;> simp
  case out =>
    unfold outRule at h
    cases hf : v.flow <;> simp only [hf, Option.some.injEq, reduceCtorEq] at h <;> subst h <;> simp at hl <;> subst hl <;>
      simp <;> (intro he; subst he; cases hx)
  case mk =>
    cases hf : v.flow <;> simp only [hf, Option.some.injEq, reduceCtorEq] at h
    subst h; simp at hl; subst hl; exact h1 _ rfl
  case analyse =>
    cases hf : v.flow <;> simp only [hf, Option.some.injEq, reduceCtorEq] at h <;> subst h <;> simp at hl <;> subst hl <;> exact h1 _ rfl

theorem exec_leaf (w : World) (v : Vars) (c : Cmd) (s : St) (x : Tgt) (hx : x.leaf = true) (hc : c ≠ .compile x) :
    (exec w v c s).1.fs x = s.fs x := by
  have h1 : x ≠ .results := by rintro rfl; cases hx
  have h2 : x ≠ .out := by rintro rfl; cases hx
  have h3 : x ≠ .dir := by rintro rfl; cases hx
  cases c with
  | compile t =>
    have h4 : x ≠ t := by rintro rfl; exact hc rfl
    simp only [exec]
    split <;> split <;> simp [St.write, h4]
  | cc =>
    simp only [exec]
    cases s.fs .mk with
    | none => simp
    | some e => simp only; split <;> simp [St.write, h2]
  | run =>
    simp only [exec, St.simulate]
    cases (w.run s.clock).2 <;> simp [St.write, h1]
  | compileRun =>
    simp only [exec, St.simulate]
    split
    · cases (w.run s.clock).2 <;> simp [St.write, h1, h2]
    · split <;> simp [St.write, h2]
  | _ => simp [exec, St.remove, St.write, h1, h2, h3]

theorem runLines_leaf (w : World) (v : Vars) (t : Tgt) (r : Rule) (h : rule v t = some r) (x : Tgt) (hx : x.leaf = true) (s : St) :
    (runLines w v r.recipe s).1.fs x = s.fs x :=
  runLines_keeps w v (fun a b => b.fs x = a.fs x) (fun _ => rfl) (fun _ _ _ h h' => h'.trans h) r.recipe
    (fun l hl s => exec_leaf w v l.cmd s x hx (rule_cmds v t r h l hl x hx)) s

theorem update_leaf (w : World) (v : Vars) (n : Nat) (t : Tgt) (x : Tgt) (hx : x.leaf = true) (s : St) : (update w v n t s).1.fs x = s.fs x :=
  (update_keeps w v (fun _ => True) (fun a b => b.fs x = a.fs x) (fun _ => rfl) (fun _ _ _ h h' => h'.trans h) (fun _ _ _ _ _ _ => trivial)
    (fun t r _ h l hl s => exec_leaf w v l.cmd s x hx (rule_cmds v t r h l hl x hx)) n).1 t trivial s

theorem updateAll_leaf (w : World) (v : Vars) (n : Nat) (ts : List Tgt) (x : Tgt) (hx : x.leaf = true) (s : St) :
    (updateAll w v n ts s).1.fs x = s.fs x :=
  (update_keeps w v (fun _ => True) (fun a b => b.fs x = a.fs x) (fun _ => rfl) (fun _ _ _ h h' => h'.trans h) (fun _ _ _ _ _ _ => trivial)
    (fun t r _ h l hl s => exec_leaf w v l.cmd s x hx (rule_cmds v t r h l hl x hx)) n).2 ts (fun _ _ => trivial) s

end Verif.Make
