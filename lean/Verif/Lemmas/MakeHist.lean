import Verif.Lemmas.Make
import Verif.Spec.Make
/-! Lemmas about histories of `Model/Make`: which design is compiled and simulated. -/
namespace Verif.Make
open MakeSpec

/-- Every file is older than now. -/
def Time (s : St) : Prop := ∀ t e, s.fs t = some e → e.mtime < s.clock

theorem exec_clock (w : World) (v : Vars) (c : Cmd) (s : St) : (exec w v c s).1.clock = s.clock + 1 := rfl

/-- A command leaves a file, removes it, or writes it now. -/
theorem exec_fs (w : World) (v : Vars) (c : Cmd) (s : St) (t : Tgt) (e : Entry) (h : (exec w v c s).1.fs t = some e) :
    s.fs t = some e ∨ e.mtime = s.clock := by
  cases c with
  | compile x =>
    simp only [exec] at h
    split at h <;> split at h <;> (try simp only [St.write] at h) <;> grind
  | cc =>
    simp only [exec] at h
    cases hm : s.fs .mk with
    | none => simp only [hm] at h; exact .inl h
    | some m => simp only [hm] at h; split at h <;> (try simp only [St.write] at h) <;> grind
  | run =>
    simp only [exec, St.simulate] at h
    cases hr : (w.run s.clock).2 <;> simp only [hr, St.write] at h <;> grind
  | compileRun =>
    simp only [exec, St.simulate] at h
    split at h
    · cases hr : (w.run s.clock).2 <;> simp only [hr, St.write] at h <;> grind
    · split at h <;> (try simp only [St.write] at h) <;> grind
  | _ => simp only [exec, St.remove, St.write] at h <;> grind

theorem exec_time (w : World) (v : Vars) (c : Cmd) (s : St) (h : Time s) : Time (exec w v c s).1 := by
  intro t e he
  rw [exec_clock]
  rcases exec_fs w v c s t e he with h1 | h1
  · have := h t e h1; omega
  · omega

theorem update_time (w : World) (v : Vars) (n : Nat) (t : Tgt) (s : St) (h : Time s) : Time (update w v n t s).1 :=
  (update_keeps w v (fun _ => True) (fun a b => Time a → Time b) (fun _ h => h) (fun _ _ _ h h' x => h' (h x)) (fun _ _ _ _ _ _ => trivial)
    (fun _ _ _ _ l _ s h => exec_time w v l.cmd s h) n).1 t trivial s h

theorem updateAll_time (w : World) (v : Vars) (n : Nat) (ts : List Tgt) (s : St) (h : Time s) : Time (updateAll w v n ts s).1 :=
  (update_keeps w v (fun _ => True) (fun a b => Time a → Time b) (fun _ h => h) (fun _ _ _ h h' x => h' (h x)) (fun _ _ _ _ _ _ => trivial)
    (fun _ _ _ _ l _ s h => exec_time w v l.cmd s h) n).2 ts (fun _ _ => trivial) s h

/-- The inputs are the same. -/
def SameIn (a b : St) : Prop := ∀ x : Tgt, x.leaf = true → b.fs x = a.fs x

theorem current_same (v : Vars) (a b : St) (h : SameIn a b) : current v b = current v a := by
  have hv : ∀ t : Tgt, t.leaf = true → version b t = version a t := by intro t ht; unfold version; rw [h t ht]
  have h1 : v.srcs.map (version b) = v.srcs.map (version a) := List.map_congr_left fun t ht => hv t (leaf_srcs v t ht)
  have h2 : v.cdeps.map (version b) = v.cdeps.map (version a) := List.map_congr_left fun t ht => hv t (leaf_cdeps v t ht)
  simp only [current, h1, h2]

/-- `d` is made of the current inputs. -/
def Cur (v : Vars) (s : St) (d : Design) : Prop := d.srcs = (current v s).srcs ∧ d.cdeps = (current v s).cdeps

theorem Cur.of_same (v : Vars) (a b : St) (h : SameIn a b) (d : Design) : Cur v b d ↔ Cur v a d := by
  unfold Cur; rw [current_same v a b h]

/-- Some input is newer than `m`. -/
def Newer (v : Vars) (s : St) (m : Nat) : Prop := ∃ t ∈ v.srcs ++ v.cdeps, ∃ e, s.fs t = some e ∧ m < e.mtime

theorem leaf_in (v : Vars) (t : Tgt) (h : t ∈ v.srcs ++ v.cdeps) : t.leaf = true := by
  rcases List.mem_append.1 h with h | h
  · exact leaf_srcs v t h
  · exact leaf_cdeps v t h

theorem Newer.of_same (v : Vars) (a b : St) (h : SameIn a b) (m : Nat) : Newer v b m ↔ Newer v a m := by
  constructor
  · rintro ⟨t, ht, e, he, hm⟩; exact ⟨t, ht, e, by rw [← h t (leaf_in v t ht)]; exact he, hm⟩
  · rintro ⟨t, ht, e, he, hm⟩; exact ⟨t, ht, e, by rw [h t (leaf_in v t ht)]; exact he, hm⟩

/-- The directory is made if it is missing; nothing else. -/
theorem update_dir (w : World) (v : Vars) (n : Nat) (s : St) :
    (update w v (n + 1) .dir s).2 = true ∧ ∀ x, x ≠ .dir → (update w v (n + 1) .dir s).1.fs x = s.fs x := by
  have hr : rule v .dir = some { deps := [], recipe := [⟨.mkdir, false⟩] } := rfl
  rw [update_succ, hr]
  simp only [List.append_nil, updateAll_nil, if_true]
  split
  · simp only [runLines, exec, true_or, if_true]
    exact ⟨trivial, fun x hx => by simp [St.write, hx]⟩
  · exact ⟨rfl, fun x _ => rfl⟩

/-- Inputs and the directory as prerequisites. -/
theorem update_inputs (w : World) (v : Vars) (n : Nat) (deps order : List Tgt) (hd : ∀ d ∈ deps, d.leaf = true)
    (ho : order = [] ∨ order = [.dir]) (s : St) (h : (updateAll w v (n + 1) (deps ++ order) s).2 = true) :
    (∀ d ∈ deps, (s.fs d).isSome) ∧ ∀ x, x ≠ .dir → (updateAll w v (n + 1) (deps ++ order) s).1.fs x = s.fs x := by
  rw [updateAll_append, updateAll_leaves w v n deps hd] at h ⊢
  simp only at h ⊢
  split at h
  · rename_i h1
    rw [if_pos h1]
    refine ⟨by simpa using h1, ?_⟩
    rcases ho with rfl | rfl
    · intro x _; rw [updateAll_nil]
    · intro x hx
      have := update_dir w v n s
      rw [updateAll_cons, updateAll_nil, if_pos this.1]
      exact this.2 x hx
  · rename_i h1; exact absurd h h1

/-- What a command makes. -/
def Makes (v : Vars) (c : Cmd) (t : Tgt) (s : St) (x : Content) : Prop :=
  (c = .compile t ∨ c = .compileRun ∧ t = .out) ∧ x = .design (current v s) ∨ c = .script ∧ t = .out ∧ x = .script v.args

/-- A target that depends on inputs: after an update without error, it is there, not older than they are, and is the old one or made of
the current ones. -/
theorem target_update (w : World) (hw : Sane w) (v : Vars) (n : Nat) (t : Tgt) (r : Rule) (hr : rule v t = some r)
    (hd : ∀ d ∈ r.deps, d.leaf = true) (ho : r.order = [] ∨ r.order = [.dir]) (c : Cmd) (hc : r.recipe = [⟨c, false⟩])
    (hm : c = .compile t ∨ c = .compileRun ∧ t = .out ∨ c = .script ∧ t = .out) (ht : t = .out ∨ t = .mk)
    (s : St) (htime : Time s) (h : (update w v (n + 2) t s).2 = true) :
    ∃ e, (update w v (n + 2) t s).1.fs t = some e ∧
      (∀ x ∈ r.deps, ∃ ex, s.fs x = some ex ∧ ex.mtime ≤ e.mtime) ∧
      (s.fs t = some e ∨ Makes v c t s e.content) := by
  have htd : t ≠ .dir := by rcases ht with rfl | rfl <;> simp
  rw [update_succ, hr] at h ⊢
  simp only at h ⊢
  have htime' := updateAll_time w v (n + 1) (r.deps ++ r.order) s htime
  have hin := update_inputs w v n r.deps r.order hd ho s
  generalize updateAll w v (n + 1) (r.deps ++ r.order) s = p at h hin htime' ⊢
  by_cases hp : p.2 = true
  case neg => rw [if_neg hp] at h; exact absurd h hp
  rw [if_pos hp] at h ⊢
  obtain ⟨h1, h2⟩ := hin hp
  have hsame : SameIn s p.1 := fun x hx => h2 x (by rintro rfl; cases hx)
  have hcur := current_same v s p.1 hsame
  by_cases hmust : mustRemake t (s.fs t) r.deps p.1 = true
  · rw [if_pos hmust, hc] at h ⊢
    simp only [runLines, Bool.false_eq_true, or_false] at h ⊢
    by_cases h0 : (exec w v c p.1).2 = 0
    case neg => rw [if_neg h0] at h; cases h
    rw [if_pos h0]
    have hwr : ∃ x, (exec w v c p.1).1.fs t = some ⟨p.1.clock, x⟩ ∧ Makes v c t s x := by
      rcases hm with rfl | ⟨rfl, rfl⟩ | ⟨rfl, rfl⟩
      · have h4 : (w.compile p.1.clock).1 = 0 := h0
        have h5 := (hw p.1.clock).1 h4
        refine ⟨.design (current v s), ?_, .inl ⟨.inl rfl, rfl⟩⟩
        rw [← hcur]
        simp [exec, h4, h5, St.write, current, version]
      · have h4 : (w.compile p.1.clock).1 = 0 := by
          apply Classical.byContradiction
          intro h4
          simp only [exec, if_neg h4] at h0
          exact h4 h0
        refine ⟨.design (current v s), ?_, .inl ⟨.inr ⟨rfl, rfl⟩, rfl⟩⟩
        rw [← hcur]
        simp only [exec, if_pos h4, St.simulate]
        cases (w.run p.1.clock).2 <;> simp [St.write]
      · exact ⟨.script v.args, by simp [exec, St.write], .inr ⟨rfl, rfl, rfl⟩⟩
    obtain ⟨x, h5, h6⟩ := hwr
    refine ⟨_, h5, ?_, .inr h6⟩
    intro y hy
    obtain ⟨ey, hey⟩ := Option.isSome_iff_exists.1 (h1 y hy)
    refine ⟨ey, hey, ?_⟩
    have := htime' y ey (by rw [hsame y (hd y hy)]; exact hey)
    simp only; omega
  · rw [if_neg hmust]
    have hph : t.phony = false := by rcases ht with rfl | rfl <;> rfl
    cases hold : s.fs t with
    | none => rw [hold] at hmust; simp [mustRemake] at hmust
    | some o =>
      refine ⟨o, by rw [h2 t htd, hold], ?_, .inl rfl⟩
      intro y hy
      obtain ⟨ey, hey⟩ := Option.isSome_iff_exists.1 (h1 y hy)
      refine ⟨ey, hey, ?_⟩
      have h3 : p.1.fs y = some ey := by rw [hsame y (hd y hy)]; exact hey
      simp only [mustRemake, hph, hold, Bool.false_or, Bool.not_eq_true, List.any_eq_false] at hmust
      have := hmust y hy
      rw [h3] at this
      simp at this
      omega

end Verif.Make
