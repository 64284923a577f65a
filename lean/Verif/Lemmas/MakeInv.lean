import Verif.Lemmas.MakeHist
/-! The invariant of histories of `Model/Make`: what is compiled, and what was simulated, is current or older than some input. -/
namespace Verif.Make
open MakeSpec

/-- The design is compiled from the sources in one step. -/
def Flow.binary : Flow → Bool
  | .icarus | .vcs | .dsim | .cvcInterp | .cvcCompiled => true
  | _ => false
/-- ... into a library, each time. -/
def Flow.library : Flow → Bool
  | .ghdl | .nvc => true
  | _ => false
/-- A script compiles and simulates. -/
def Flow.script : Flow → Bool
  | .activehdl | .riviera | .questaCompat => true
  | _ => false
/-- One command compiles and simulates. -/
def Flow.direct : Flow → Bool
  | .xcelium | .ius | .questaQrun | .skip => true
  | _ => false

/-- The flows whose results are those of the compiled design. -/
def Flow.staged : Flow → Bool
  | .icarus | .vcs | .dsim | .cvcCompiled | .verilator | .ghdl | .nvc => true
  | _ => false

/-- A design that is current or older than some input. -/
def Fresh (v : Vars) (s : St) (d : Design) (m : Nat) : Prop := Cur v s d ∨ Newer v s m

structure Inv (v : Vars) (s : St) : Prop where
  time : Time s
  bin : v.flow.binary = true → ∀ e, s.fs .out = some e → ∃ d, e.content = .design d ∧ Fresh v s d e.mtime
  made : v.flow = .verilator → ∀ e, s.fs .mk = some e → ∃ d, e.content = .design d ∧ Fresh v s d e.mtime
  cc : v.flow = .verilator → ∀ e, s.fs .out = some e → ∃ d, e.content = .design d ∧
    ∀ em, s.fs .mk = some em → em.content = .design d ∨ e.mtime < em.mtime
  lib : v.flow.library = true → ∀ e, s.fs .out = some e → ∃ d, e.content = .design d
  scr : v.flow.script = true → ∀ e, s.fs .out = some e → ∃ a, e.content = .script a
  res : ∀ e, s.fs .results = some e → ∃ f d, e.content = .xml f d ∧
    (v.flow.staged = true → ∀ eo, s.fs .out = some eo → eo.content = .design d ∨ e.mtime < eo.mtime) ∧
    (v.flow.script = true ∨ v.flow.direct = true → Fresh v s d e.mtime)

theorem Inv.empty (v : Vars) : Inv v MakeSpec.empty where
  time := by intro t e h; cases h
  bin := by intro _ e h; cases h
  made := by intro _ e h; cases h
  cc := by intro _ e h; cases h
  lib := by intro _ e h; cases h
  scr := by intro _ e h; cases h
  res := by intro e h; cases h

theorem Fresh.of_same (v : Vars) (a b : St) (h : SameIn a b) (d : Design) (m : Nat) : Fresh v b d m ↔ Fresh v a d m := by
  unfold Fresh; rw [Cur.of_same v a b h, Newer.of_same v a b h]

theorem Fresh.now (v : Vars) (a b : St) (h : SameIn a b) (m : Nat) : Fresh v b (current v a) m :=
  .inl (by rw [Cur.of_same v a b h]; exact ⟨rfl, rfl⟩)

/-- What may be written to `out` at a time. -/
structure OutOk (v : Vars) (a : St) (x : Content) : Prop where
  bin : v.flow.binary = true → x = .design (current v a)
  cc : v.flow = .verilator → ∃ em, a.fs .mk = some em ∧ em.content = x
  lib : v.flow.library = true → ∃ d, x = .design d
  scr : v.flow.script = true → ∃ y, x = .script y

/-- A step that does not change inputs. -/
theorem Inv.next (v : Vars) (a b : St) (hi : Inv v a) (hs : SameIn a b) (ht : Time b)
    (hmk : b.fs .mk = a.fs .mk ∨ b.fs .mk = none ∨ b.fs .mk = some ⟨a.clock, .design (current v a)⟩)
    (hout : b.fs .out = a.fs .out ∨ b.fs .out = none ∨ ∃ x, b.fs .out = some ⟨a.clock, x⟩ ∧ OutOk v a x ∧ b.fs .mk = a.fs .mk)
    (hres : b.fs .results = a.fs .results ∨ b.fs .results = none ∨ ∃ f d, b.fs .results = some ⟨a.clock, .xml f d⟩ ∧
      (v.flow.staged = true → ∀ eo, b.fs .out = some eo → eo.content = .design d) ∧
      (v.flow.script = true ∨ v.flow.direct = true → Cur v a d)) : Inv v b where
  time := ht
  bin := by
    intro hf e he
    rcases hout with h | h | ⟨x, h, h1, -⟩
    · obtain ⟨d, h2, h3⟩ := hi.bin hf e (by rw [← h]; exact he)
      exact ⟨d, h2, (Fresh.of_same v a b hs d _).2 h3⟩
    · rw [h] at he; cases he
    · rw [h] at he; cases he
      exact ⟨_, h1.bin hf, Fresh.now v a b hs _⟩
  made := by
    intro hf e he
    rcases hmk with h | h | h
    · obtain ⟨d, h2, h3⟩ := hi.made hf e (by rw [← h]; exact he)
      exact ⟨d, h2, (Fresh.of_same v a b hs d _).2 h3⟩
    · rw [h] at he; cases he
    · rw [h] at he; cases he
      exact ⟨_, rfl, Fresh.now v a b hs _⟩
  cc := by
    intro hf e he
    rcases hout with h | h | ⟨x, h, h1, h0⟩
    · obtain ⟨d, h2, h3⟩ := hi.cc hf e (by rw [← h]; exact he)
      refine ⟨d, h2, fun em hem => ?_⟩
      rcases hmk with h4 | h4 | h4
      · exact h3 em (by rw [← h4]; exact hem)
      · rw [h4] at hem; cases hem
      · rw [h4] at hem; cases hem
        exact .inr (hi.time .out e (by rw [← h]; exact he))
    · rw [h] at he; cases he
    · rw [h] at he; cases he
      obtain ⟨em, h2, h3⟩ := h1.cc hf
      obtain ⟨d, h4, -⟩ := hi.made hf em h2
      refine ⟨d, by rw [← h4, h3], fun em' hem' => ?_⟩
      rw [h0, h2] at hem'; cases hem'
      exact .inl h4
  lib := by
    intro hf e he
    rcases hout with h | h | ⟨x, h, h1, -⟩
    · exact hi.lib hf e (by rw [← h]; exact he)
    · rw [h] at he; cases he
    · rw [h] at he; cases he; exact h1.lib hf
  scr := by
    intro hf e he
    rcases hout with h | h | ⟨x, h, h1, -⟩
    · exact hi.scr hf e (by rw [← h]; exact he)
    · rw [h] at he; cases he
    · rw [h] at he; cases he; exact h1.scr hf
  res := by
    intro e he
    rcases hres with h | h | ⟨f, d, h, h1, h2⟩
    · have he' : a.fs .results = some e := by rw [← h]; exact he
      obtain ⟨f, d, h2, h3, h4⟩ := hi.res e he'
      refine ⟨f, d, h2, ?_, fun hf => (Fresh.of_same v a b hs d _).2 (h4 hf)⟩
      intro hf eo heo
      rcases hout with h5 | h5 | ⟨x, h5, -⟩
      · exact h3 hf eo (by rw [← h5]; exact heo)
      · rw [h5] at heo; cases heo
      · rw [h5] at heo; cases heo
        exact .inr (hi.time _ _ he')
    · rw [h] at he; cases he
    · rw [h] at he; cases he
      exact ⟨f, d, rfl, fun hf eo heo => .inl (h1 hf eo heo), fun hf => .inl (by rw [Cur.of_same v a b hs]; exact h2 hf)⟩

/-- What is simulated, by flow. -/
theorem simulated_staged (v : Vars) (s : St) (hi : Inv v s) (hf : v.flow.staged = true) (eo : Entry) (h : s.fs .out = some eo) :
    eo.content = .design (simulated v s) := by
  have : ∃ d, eo.content = .design d := by
    cases hv : v.flow <;> rw [hv] at hf <;> cases hf
    case verilator => exact (hi.cc hv eo h).imp fun _ h => h.1
    case ghdl | nvc => exact hi.lib (by rw [hv]; rfl) eo h
    all_goals exact (hi.bin (by rw [hv]; rfl) eo h).imp fun _ h => h.1
  obtain ⟨d, hd⟩ := this
  obtain ⟨m, c⟩ := eo
  simp only at hd
  subst hd
  unfold simulated
  rw [h]
  cases hv : v.flow <;> rw [hv] at hf <;> cases hf <;> rfl

theorem simulated_cur (v : Vars) (s : St) (hi : Inv v s) (hf : v.flow.script = true ∨ v.flow.direct = true) : Cur v s (simulated v s) := by
  unfold simulated
  rcases hf with hf | hf
  · cases ho : s.fs .out with
    | none => cases hv : v.flow <;> rw [hv] at hf <;> cases hf <;> exact ⟨rfl, rfl⟩
    | some e =>
      obtain ⟨m, c⟩ := e
      obtain ⟨x, hx⟩ := hi.scr hf _ ho
      simp only at hx
      subst hx
      cases hv : v.flow <;> rw [hv] at hf <;> cases hf <;> exact ⟨rfl, rfl⟩
  · cases hv : v.flow <;> rw [hv] at hf <;> cases hf <;> exact ⟨rfl, rfl⟩

/-- The commands of the rules of a flow. -/
def Flow.cmds : Flow → List Cmd
  | .skip => [.rm, .mkdir, .echo]
  | .icarus | .vcs | .dsim | .cvcCompiled | .ghdl | .nvc => [.rm, .mkdir, .compile .out, .run, .check]
  | .cvcInterp => [.rm, .mkdir, .compileRun]
  | .verilator => [.rm, .mkdir, .compile .mk, .cc, .run, .check]
  | .activehdl | .riviera | .questaCompat => [.rm, .mkdir, .script, .run, .check]
  | .questaQrun | .xcelium | .ius => [.rm, .mkdir, .run, .check]

theorem rule_in_cmds (v : Vars) (t : Tgt) (r : Rule) (h : rule v t = some r) (l : Line) (hl : l ∈ r.recipe) : l.cmd ∈ v.flow.cmds := by
  cases t <;> simp only [rule, Option.some.injEq, reduceCtorEq] at h
  case sim | regression => subst h; simp at hl
  case rmResults | dir => subst h; simp at hl; subst hl; cases hf : v.flow <;> simp [Flow.cmds]
  case results =>
    subst h; unfold resultsRule at hl
    cases hf : v.flow <;> simp [hf, simulate] at hl <;> rcases hl with rfl | rfl | rfl <;> simp [Flow.cmds]
  case out =>
    unfold outRule at h
    cases hf : v.flow <;> simp only [hf, Option.some.injEq, reduceCtorEq] at h <;> subst h <;> simp at hl <;> subst hl <;> simp [Flow.cmds]
  case mk =>
    cases hf : v.flow <;> simp only [hf, Option.some.injEq, reduceCtorEq] at h
    subst h; simp at hl; subst hl; simp [Flow.cmds]
  case analyse =>
    cases hf : v.flow <;> simp only [hf, Option.some.injEq, reduceCtorEq] at h <;> subst h <;> simp at hl <;> subst hl <;> simp [Flow.cmds]

theorem exec_same (w : World) (v : Vars) (c : Cmd) (s : St) (hc : c ∈ v.flow.cmds) : SameIn s (exec w v c s).1 := by
  intro x hx
  refine exec_leaf w v c s x hx ?_
  rintro rfl
  cases hf : v.flow <;> simp [hf, Flow.cmds] at hc <;> subst hc <;> cases hx

theorem exec_inv (w : World) (v : Vars) (c : Cmd) (s : St) (hc : c ∈ v.flow.cmds) (hi : Inv v s) : Inv v (exec w v c s).1 := by
  have hs := exec_same w v c s hc
  have ht := exec_time w v c s hi.time
  cases c with
  | rm => exact hi.next v s _ hs ht (.inl rfl) (.inl rfl) (.inr (.inl (by simp [exec, St.remove])))
  | mkdir => exact hi.next v s _ hs ht (.inl rfl) (.inl rfl) (.inl rfl)
  | echo => exact hi.next v s _ hs ht (.inl rfl) (.inl rfl) (.inl rfl)
  | check => exact hi.next v s _ hs ht (.inl rfl) (.inl rfl) (.inl rfl)
  | script =>
    refine hi.next v s _ hs ht (.inl rfl) (.inr (.inr ⟨.script v.args, by simp [exec, St.write], ?_, rfl⟩)) (.inl rfl)
    have hf : v.flow.script = true := by cases hf : v.flow <;> simp [hf, Flow.cmds, Flow.script] at hc ⊢
    constructor
    · intro h; cases hv : v.flow <;> simp [hv, Flow.binary, Flow.script] at h hf
    · intro h; simp [h, Flow.script] at hf
    · intro h; cases hv : v.flow <;> simp [hv, Flow.library, Flow.script] at h hf
    · intro _; exact ⟨_, rfl⟩
  | compile t =>
    have hcont : ∀ (q : Bool), current v (if q then { s with log := s.log ++ [Ev.compiled (current v s)] } else s) = current v s := by
      intro q; cases q <;> rfl
    have hfs : (exec w v (.compile t) s).1.fs = if (w.compile s.clock).2 then
        fun x => if x = t then some ⟨s.clock, .design (current v s)⟩ else s.fs x else s.fs := by
      simp only [exec]
      by_cases h0 : (w.compile s.clock).1 = 0 <;> by_cases h1 : (w.compile s.clock).2 = true <;> simp only [h0, h1, if_true, if_false, Bool.false_eq_true] <;> rfl
    by_cases hq : (w.compile s.clock).2 = true
    case neg =>
      rw [if_neg hq] at hfs
      exact hi.next v s _ hs ht (.inl (by rw [hfs])) (.inl (by rw [hfs])) (.inl (by rw [hfs]))
    rw [if_pos hq] at hfs
    have htt : t = .out ∧ v.flow ≠ .verilator ∧ v.flow.script = false ∨ t = .mk ∧ v.flow = .verilator := by
      cases hf : v.flow <;> simp [hf, Flow.cmds, Flow.script] at hc ⊢ <;> exact hc
    rcases htt with ⟨rfl, hnv, hns⟩ | ⟨rfl, hv⟩
    · refine hi.next v s _ hs ht (.inl (by rw [hfs]; rfl)) (.inr (.inr ⟨_, by rw [hfs]; rfl, ?_, by rw [hfs]; rfl⟩)) (.inl (by rw [hfs]; rfl))
      exact ⟨fun _ => rfl, fun h => absurd h hnv, fun _ => ⟨_, rfl⟩, fun h => (by rw [hns] at h; cases h)⟩
    · exact hi.next v s _ hs ht (.inr (.inr (by rw [hfs]; rfl))) (.inl (by rw [hfs]; rfl)) (.inl (by rw [hfs]; rfl))
  | cc =>
    have hv : v.flow = .verilator := by cases hf : v.flow <;> simp [hf, Flow.cmds] at hc ⊢
    cases hm : s.fs .mk with
    | none =>
      have hfs : (exec w v .cc s).1.fs = s.fs := by simp [exec, hm]
      exact hi.next v s _ hs ht (.inl (by rw [hfs])) (.inl (by rw [hfs])) (.inl (by rw [hfs]))
    | some em =>
      have hfs : (exec w v .cc s).1.fs = if (w.compile s.clock).2 then
          fun x => if x = .out then some ⟨s.clock, em.content⟩ else s.fs x else s.fs := by
        simp only [exec, hm]; split <;> simp [St.write]
      by_cases hq : (w.compile s.clock).2 = true
      case neg =>
        rw [if_neg hq] at hfs
        exact hi.next v s _ hs ht (.inl (by rw [hfs])) (.inl (by rw [hfs])) (.inl (by rw [hfs]))
      rw [if_pos hq] at hfs
      refine hi.next v s _ hs ht (.inl (by rw [hfs]; rfl)) (.inr (.inr ⟨em.content, by rw [hfs]; rfl, ?_, by rw [hfs]; rfl⟩)) (.inl (by rw [hfs]; rfl))
      refine ⟨fun h => ?_, fun _ => ⟨em, hm, rfl⟩, fun h => ?_, fun h => ?_⟩ <;> simp [hv, Flow.binary, Flow.library, Flow.script] at h
  | run =>
    have hfs : (exec w v .run s).1.fs = match (w.run s.clock).2 with
        | .missing => s.fs
        | f => fun x => if x = .results then some ⟨s.clock, .xml f (simulated v s)⟩ else s.fs x := by
      simp only [exec, St.simulate]; cases (w.run s.clock).2 <;> rfl
    have key : ∀ f, (exec w v .run s).1.fs = (fun x => if x = .results then some ⟨s.clock, .xml f (simulated v s)⟩ else s.fs x) →
        Inv v (exec w v .run s).1 := by
      intro f hf
      refine hi.next v s _ hs ht (.inl (by rw [hf]; rfl)) (.inl (by rw [hf]; rfl)) (.inr (.inr ⟨f, simulated v s, by rw [hf]; rfl, ?_,
        simulated_cur v s hi⟩))
      intro hst eo heo
      rw [hf] at heo
      exact simulated_staged v s hi hst eo heo
    cases hr : (w.run s.clock).2 with
    | missing =>
      rw [hr] at hfs
      exact hi.next v s _ hs ht (.inl (by rw [hfs])) (.inl (by rw [hfs])) (.inl (by rw [hfs]))
    | malformed => rw [hr] at hfs; exact key _ hfs
    | doc d => rw [hr] at hfs; exact key _ hfs
  | compileRun =>
    have hv : v.flow = .cvcInterp := by cases hf : v.flow <;> simp [hf, Flow.cmds] at hc ⊢
    have hok : OutOk v s (.design (current v s)) :=
      ⟨fun _ => rfl, fun h => (by rw [hv] at h; cases h), fun _ => ⟨_, rfl⟩, fun h => (by simp [hv, Flow.script] at h)⟩
    have hno : ∀ d, (v.flow.staged = true → ∀ eo, (exec w v .compileRun s).1.fs .out = some eo → eo.content = .design d) ∧
        (v.flow.script = true ∨ v.flow.direct = true → Cur v s d) := by
      intro d
      refine ⟨fun h => ?_, fun h => ?_⟩ <;> simp [hv, Flow.staged, Flow.script, Flow.direct] at h
    by_cases h0 : (w.compile s.clock).1 = 0
    · have hmk : (exec w v .compileRun s).1.fs .mk = s.fs .mk := by
        simp only [exec, if_pos h0, St.simulate]; cases (w.run s.clock).2 <;> simp [St.write]
      have hout : (exec w v .compileRun s).1.fs .out = some ⟨s.clock, .design (current v s)⟩ := by
        simp only [exec, if_pos h0, St.simulate]; cases (w.run s.clock).2 <;> simp [St.write]
      refine hi.next v s _ hs ht (.inl hmk) (.inr (.inr ⟨_, hout, hok, hmk⟩)) ?_
      cases hr : (w.run s.clock).2 with
      | missing => exact .inl (by simp only [exec, if_pos h0, St.simulate, hr]; simp [St.write])
      | malformed => exact .inr (.inr ⟨.malformed, _, by simp only [exec, if_pos h0, St.simulate, hr]; simp only [St.write, if_true]; rfl, hno _⟩)
      | doc d => exact .inr (.inr ⟨.doc d, _, by simp only [exec, if_pos h0, St.simulate, hr]; simp only [St.write, if_true]; rfl, hno _⟩)
    · have hmk : (exec w v .compileRun s).1.fs .mk = s.fs .mk := by
        simp only [exec, if_neg h0]; split <;> simp [St.write]
      refine hi.next v s _ hs ht (.inl hmk) ?_ (.inl (by simp only [exec, if_neg h0]; split <;> simp [St.write]))
      by_cases hq : (w.compile s.clock).2 = true
      · exact .inr (.inr ⟨_, by simp only [exec, if_neg h0, if_pos hq]; simp only [St.write, if_true], hok, hmk⟩)
      · exact .inl (by simp only [exec, if_neg h0, if_neg hq])

theorem update_inv (w : World) (v : Vars) (n : Nat) (t : Tgt) (s : St) (h : Inv v s) : Inv v (update w v n t s).1 :=
  (update_keeps w v (fun _ => True) (fun a b => Inv v a → Inv v b) (fun _ h => h) (fun _ _ _ h h' x => h' (h x)) (fun _ _ _ _ _ _ => trivial)
    (fun t r _ hr l hl s h => exec_inv w v l.cmd s (rule_in_cmds v t r hr l hl) h) n).1 t trivial s h

theorem updateAll_inv (w : World) (v : Vars) (n : Nat) (ts : List Tgt) (s : St) (h : Inv v s) : Inv v (updateAll w v n ts s).1 :=
  (update_keeps w v (fun _ => True) (fun a b => Inv v a → Inv v b) (fun _ h => h) (fun _ _ _ h h' x => h' (h x)) (fun _ _ _ _ _ _ => trivial)
    (fun t r _ hr l hl s h => exec_inv w v l.cmd s (rule_in_cmds v t r hr l hl) h) n).2 ts (fun _ _ => trivial) s h

/-- The arguments do not matter for the invariant. -/
theorem Inv.args (v : Vars) (s : St) (a : Nat) : Inv { v with args := a } s ↔ Inv v s :=
  ⟨fun h => ⟨h.time, h.bin, h.made, h.cc, h.lib, h.scr, h.res⟩, fun h => ⟨h.time, h.bin, h.made, h.cc, h.lib, h.scr, h.res⟩⟩

/-- An input is written. -/
theorem Fresh.edit (v : Vars) (s : St) (t : Tgt) (n : Nat) (d : Design) (m : Nat) (hm : m < s.clock) (h : Fresh v s d m) :
    Fresh v (stepSt w v s (.edit t n)) d m := by
  by_cases ht : t ∈ v.srcs ++ v.cdeps
  · exact .inr ⟨t, ht, ⟨s.clock, .text n⟩, by simp [stepSt, St.write], hm⟩
  · rcases h with h | ⟨x, hx, e, he, hlt⟩
    · refine .inl ?_
      have hver : ∀ x, x ≠ t → version (stepSt w v s (.edit t n)) x = version s x := by
        intro x hx; simp [version, stepSt, St.write, hx]
      have h1 : v.srcs.map (version (stepSt w v s (.edit t n))) = v.srcs.map (version s) :=
        List.map_congr_left fun x hx => hver x (by rintro rfl; exact ht (by simp [hx]))
      have h2 : v.cdeps.map (version (stepSt w v s (.edit t n))) = v.cdeps.map (version s) :=
        List.map_congr_left fun x hx => hver x (by rintro rfl; exact ht (by simp [hx]))
      unfold Cur current at h ⊢
      simp only [h1, h2]
      exact h
    · have hxt : x ≠ t := by rintro rfl; exact ht hx
      exact .inr ⟨x, hx, e, by simp [stepSt, St.write, hxt, he], hlt⟩

theorem Inv.edit (w : World) (v : Vars) (s : St) (t : Tgt) (n : Nat) (ht : t.leaf = true) (hi : Inv v s) : Inv v (stepSt w v s (.edit t n)) := by
  have hout : (stepSt w v s (.edit t n)).fs .out = s.fs .out := by
    have : Tgt.out ≠ t := by rintro rfl; cases ht
    simp [stepSt, St.write, this]
  have hmk : (stepSt w v s (.edit t n)).fs .mk = s.fs .mk := by
    have : Tgt.mk ≠ t := by rintro rfl; cases ht
    simp [stepSt, St.write, this]
  have hres : (stepSt w v s (.edit t n)).fs .results = s.fs .results := by
    have : Tgt.results ≠ t := by rintro rfl; cases ht
    simp [stepSt, St.write, this]
  constructor
  · intro x e he
    show e.mtime < s.clock + 1
    simp only [stepSt, St.write] at he
    split at he
    · cases he; simp
    · have := hi.time x e he; omega
  · intro hf e he
    rw [hout] at he
    exact (hi.bin hf e he).imp fun d h => ⟨h.1, h.2.edit v s t n d _ (hi.time _ _ he)⟩
  · intro hf e he
    rw [hmk] at he
    exact (hi.made hf e he).imp fun d h => ⟨h.1, h.2.edit v s t n d _ (hi.time _ _ he)⟩
  · intro hf e he
    rw [hout] at he
    rw [hmk]
    exact hi.cc hf e he
  · intro hf e he; rw [hout] at he; exact hi.lib hf e he
  · intro hf e he; rw [hout] at he; exact hi.scr hf e he
  · intro e he
    rw [hres] at he
    rw [hout]
    obtain ⟨f, d, h1, h2, h3⟩ := hi.res e he
    exact ⟨f, d, h1, h2, fun hf => (h3 hf).edit v s t n d _ (hi.time _ _ he)⟩

theorem Inv.clean (w : World) (v : Vars) (s : St) (hi : Inv v s) : Inv v (stepSt w v s .clean) := by
  refine hi.next v s _ ?_ ?_ (.inr (.inl (by simp [stepSt, St.remove]))) (.inr (.inl (by simp [stepSt, St.remove])))
    (.inr (.inl (by simp [stepSt, St.remove])))
  · intro x hx
    cases x <;> simp [Tgt.leaf] at hx <;> simp [stepSt, St.remove]
  · intro x e he
    have : s.fs x = some e := by
      simp only [stepSt, St.remove] at he
      split at he
      · cases he
      · split at he
        · cases he
        · split at he
          · cases he
          · split at he
            · cases he
            · exact he
    have := hi.time x e this
    show e.mtime < s.clock + 1
    omega

/-- Inputs are edited; the goals are `sim` and `regression` (or any other). -/
def Step.ok : Step → Bool
  | .edit t _ => t.leaf
  | _ => true

/-- **Invariant** of all histories. -/
theorem Inv.history (w : World) (v : Vars) (h : List Step) (hok : ∀ x ∈ h, x.ok = true) : Inv v (h.foldl (stepSt w v) MakeSpec.empty) := by
  suffices ∀ s, Inv v s → Inv v (h.foldl (stepSt w v) s) from this _ (Inv.empty v)
  induction h with
  | nil => intro s hs; exact hs
  | cons x h ih =>
    intro s hs
    refine ih (fun y hy => hok y (List.mem_cons_of_mem _ hy)) _ ?_
    have hx := hok x (List.mem_cons_self ..)
    cases x with
    | edit t n => exact hs.edit w v s t n hx
    | clean => exact hs.clean w v s
    | make a g => exact (Inv.args v _ a).1 (update_inv w _ 8 g s ((Inv.args v s a).2 hs))

end Verif.Make
