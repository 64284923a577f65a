import Verif.Spec.BuildArgs
import Verif.Props.RunCmd
/-!
# C137: build arguments and the time scale
-/
namespace Verif

open Spec RunCmd
open Runner (lit Tag outdated Times only asTclValue)

theorem argsFor_spec (b : BuildOpts) (t : Tag) : argsFor b t = forLanguage t b.args := by
  unfold argsFor forLanguage
  induction b.args with
  | nil => rfl
  | cons a l ih =>
    obtain ⟨g, x⟩ := a
    rw [List.filter_cons, List.filterMap_cons, ← ih]
    cases g with
    | none => simp
    | some g => by_cases h : g = t <;> simp [h]

theorem inserted_nil (c : Command) : Inserted [] c c := ⟨c, [], by simp, by simp⟩

theorem each_one {α β : Type} {R : α → β → Prop} {a : α} {b : β} (h : R a b) : Each R [a] [b] := .cons a b [] [] h .nil

theorem each_append {α β : Type} {R : α → β → Prop} {l l' : List α} {m m' : List β} (h : Each R l m) (h' : Each R l' m') :
    Each R (l ++ l') (m ++ m') := by
  induction h with
  | nil => exact h'
  | cons a b l m hr _ ih => exact .cons a b _ _ hr ih

theorem perSource_each {R : Command → Command → Prop} {f g f' g' : Text → Command} (hf : ∀ p, R (f p) (f' p)) (hg : ∀ p, R (g p) (g' p)) :
    ∀ (ss : List (Tag × Text)) (cmds : List Command), perSource f g ss = .ok cmds →
      ∃ bases, perSource f' g' ss = .ok bases ∧ Each R cmds bases
  | [], cmds, h => by cases h; exact ⟨[], rfl, .nil⟩
  | s :: ss, cmds, h => by
    unfold perSource at h ⊢
    split at h
    · next h1 =>
      rw [if_pos h1]
      cases hr : perSource f g ss with
      | error e => rw [hr] at h; cases h
      | ok l =>
        rw [hr] at h; cases h
        obtain ⟨m, e, he⟩ := perSource_each hf hg ss l hr
        rw [e]
        exact ⟨_, rfl, .cons _ _ _ _ (hf _) he⟩
    · next h1 =>
      rw [if_neg h1]
      split at h
      · next h2 =>
        rw [if_pos h2]
        cases hr : perSource f g ss with
        | error e => rw [hr] at h; cases h
        | ok l =>
          rw [hr] at h; cases h
          obtain ⟨m, e, he⟩ := perSource_each hf hg ss l hr
          rw [e]
          exact ⟨_, rfl, .cons _ _ _ _ (hg _) he⟩
      · cases h

theorem only_noArgs {a t srcs args} (h : only a t srcs args = true) : only a t srcs [] = true := by
  unfold only at h ⊢
  simp only [Bool.and_eq_true] at h
  simp [h.1]

theorem fresh_noArgs (b : BuildOpts) (out : Option Nat) (times : Times) (srcs : List (Tag × Text)) (r r' : PyM (List Command))
    (cmds : List Command) (R : Command → Command → Prop) (h : unlessFresh b out times srcs r = .ok cmds)
    (hr : ∀ c, r = .ok c → ∃ m, r' = .ok m ∧ Each R c m) :
    ∃ m, unlessFresh { b with args := [] } out times srcs r' = .ok m ∧ Each R cmds m := by
  unfold unlessFresh at h ⊢
  split at h
  · cases h
  · next o ho =>
    simp only [ho]
    split at h
    · next hc => rw [if_pos hc]; exact hr _ h
    · next hc => rw [if_neg hc]; cases h; exact ⟨[], rfl, .nil⟩

theorem ins_right {xs : List Text} {base cmd p : List Text} (h : Inserted xs base cmd) : Inserted xs (base ++ p) (cmd ++ p) := by
  obtain ⟨l, r, rfl, rfl⟩ := h
  exact ⟨l, r ++ p, by simp, by simp⟩

theorem ins_here {xs ys l : List Text} (h : ys = []) : Inserted xs (l ++ ys) (l ++ xs) := ⟨l, [], by simp [h], by simp⟩

/-- Pieces behind the arguments are the same. -/
macro "pieces" : tactic => `(tactic| (repeat (first | exact ins_here rfl | apply ins_right)))

/-- A simulator with a compiler for each language. -/
def TwoCompilers (t : Tool) : Prop := t = .questa ∨ t = .riviera ∨ t = .activeHdl

theorem argsOf_vhdl {t cmd args} (ht : TwoCompilers t) (h : cmd.head? = some (lit "vcom") ∨ cmd.head? = some (lit "acom")) :
    argsOf t cmd args = forLanguage .vhdl args := by
  rcases ht with rfl | rfl | rfl <;> exact if_pos h

theorem argsOf_verilog {t cmd args} (ht : TwoCompilers t) (h : cmd.head? = some (lit "vlog") ∨ cmd.head? = some (lit "alog")) :
    argsOf t cmd args = forLanguage .verilog args := by
  have h1 : ¬ (cmd.head? = some (lit "vcom") ∨ cmd.head? = some (lit "acom")) := by
    rcases h with h | h <;> rw [h] <;> decide +kernel
  rcases ht with rfl | rfl | rfl <;> exact (if_neg h1).trans (if_pos h)

theorem argsOf_none {t cmd args} {w : Text} (ht : TwoCompilers t) (h : cmd.head? = some w)
    (hw : w ≠ lit "vcom" ∧ w ≠ lit "acom" ∧ w ≠ lit "vlog" ∧ w ≠ lit "alog") : argsOf t cmd args = [] := by
  have h1 : ¬ (cmd.head? = some (lit "vcom") ∨ cmd.head? = some (lit "acom")) := by
    rw [h]; simp only [Option.some.injEq]; rintro (e | e); exact hw.1 e; exact hw.2.1 e
  have h2 : ¬ (cmd.head? = some (lit "vlog") ∨ cmd.head? = some (lit "alog")) := by
    rw [h]; simp only [Option.some.injEq]; rintro (e | e); exact hw.2.2.1 e; exact hw.2.2.2 e
  rcases ht with rfl | rfl | rfl <;> exact (if_neg h1).trans (if_neg h2)

theorem gains_none {t cmd args} {w : Text} (ht : TwoCompilers t) (h : cmd.head? = some w)
    (hw : w ≠ lit "vcom" ∧ w ≠ lit "acom" ∧ w ≠ lit "vlog" ∧ w ≠ lit "alog") : Inserted (argsOf t cmd args) cmd cmd := by
  rw [argsOf_none ht h hw]; exact inserted_nil _

theorem aldec_args (cfg : Cfg) (t : Tool) (b : BuildOpts) (out : Option Nat) (times : Times) (cmds : List Command)
    (ht : t = .riviera ∨ t = .activeHdl) (h : buildCmds cfg t b out times = .ok cmds) :
    ∃ bases, buildCmds cfg t { b with args := [] } out times = .ok bases ∧
      Each (fun cmd base => Inserted (argsOf t cmd b.args) base cmd) cmds bases := by
  have h2 : TwoCompilers t := .inr ht
  have shape : ∀ b : BuildOpts, buildCmds cfg t b out times =
      (unlessFresh b out times (b.sources ++ b.vhdlSources ++ b.verilogSources) ((perSource
        (fun p => [lit "acom", lit "-work", asTclValue b.library] ++ argsFor b .vhdl ++ [asTclValue p])
        (fun p => [lit "alog", lit "-work", asTclValue b.library, lit "-pli", asTclValue (cfg.libEntry "vpi" "riviera"), lit "-sv"] ++
          defs t b ++ incs t b ++ argsFor b .verilog ++ [asTclValue p])
        (b.sources ++ b.vhdlSources ++ b.verilogSources)).map ([lit "alib", asTclValue b.library] :: ·))).map
        fun lines => [lit "onerror {\n quit -code 1 \n}"] :: lines ++ [[lit "exit"]] := by
    intro b
    rcases ht with rfl | rfl <;> rfl
  rw [shape] at h ⊢
  cases hu : unlessFresh b out times (b.sources ++ b.vhdlSources ++ b.verilogSources) ((perSource
        (fun p => [lit "acom", lit "-work", asTclValue b.library] ++ argsFor b .vhdl ++ [asTclValue p])
        (fun p => [lit "alog", lit "-work", asTclValue b.library, lit "-pli", asTclValue (cfg.libEntry "vpi" "riviera"), lit "-sv"] ++
          defs t b ++ incs t b ++ argsFor b .verilog ++ [asTclValue p])
        (b.sources ++ b.vhdlSources ++ b.verilogSources)).map ([lit "alib", asTclValue b.library] :: ·)) with
  | error e => rw [hu] at h; cases h
  | ok l =>
    rw [hu] at h; cases h
    obtain ⟨m, hm, he⟩ := fresh_noArgs _ _ _ _ _ ((perSource
        (fun p => [lit "acom", lit "-work", asTclValue b.library] ++ argsFor { b with args := [] } .vhdl ++ [asTclValue p])
        (fun p => [lit "alog", lit "-work", asTclValue b.library, lit "-pli", asTclValue (cfg.libEntry "vpi" "riviera"), lit "-sv"] ++
          defs t b ++ incs t b ++ argsFor { b with args := [] } .verilog ++ [asTclValue p])
        (b.sources ++ b.vhdlSources ++ b.verilogSources)).map ([lit "alib", asTclValue b.library] :: ·)) _
        (fun cmd base => Inserted (argsOf t cmd b.args) base cmd) hu (by
      intro c hc
      cases hp : perSource (fun p => [lit "acom", lit "-work", asTclValue b.library] ++ argsFor b .vhdl ++ [asTclValue p])
        (fun p => [lit "alog", lit "-work", asTclValue b.library, lit "-pli", asTclValue (cfg.libEntry "vpi" "riviera"), lit "-sv"] ++
          defs t b ++ incs t b ++ argsFor b .verilog ++ [asTclValue p])
        (b.sources ++ b.vhdlSources ++ b.verilogSources) with
      | error e => rw [hp] at hc; cases hc
      | ok l =>
        rw [hp] at hc; cases hc
        obtain ⟨m, hm, he⟩ := perSource_each (R := fun cmd base => Inserted (argsOf t cmd b.args) base cmd)
          (f' := fun p => [lit "acom", lit "-work", asTclValue b.library] ++ argsFor { b with args := [] } .vhdl ++ [asTclValue p])
          (g' := fun p => [lit "alog", lit "-work", asTclValue b.library, lit "-pli", asTclValue (cfg.libEntry "vpi" "riviera"), lit "-sv"] ++
            defs t b ++ incs t b ++ argsFor { b with args := [] } .verilog ++ [asTclValue p])
          (fun p => by
            rw [argsOf_vhdl h2 (.inr rfl), ← argsFor_spec]
            pieces)
          (fun p => by
            rw [argsOf_verilog h2 (.inr rfl), ← argsFor_spec]
            pieces) _ _ hp
        rw [hm]
        exact ⟨_, rfl, .cons _ _ _ _ (gains_none h2 rfl (by decide +kernel)) he⟩)
    refine ⟨[lit "onerror {\n quit -code 1 \n}"] :: m ++ [[lit "exit"]], ?_, ?_⟩
    · have hm' : unlessFresh { b with args := [] } out times _ _ = .ok m := hm
      exact congrArg (Except.map fun lines => [lit "onerror {\n quit -code 1 \n}"] :: lines ++ [[lit "exit"]]) hm'
    · refine .cons _ _ _ _ (gains_none h2 rfl (by decide +kernel)) (each_append he (each_one ?_))
      exact gains_none h2 rfl (by decide +kernel)

/-- **C137** Every command of a build is the command without build arguments, with the arguments for its language inserted as they are,
in their order and at one place. -/
theorem C137_args (cfg : Cfg) (t : Tool) (b : BuildOpts) (out : Option Nat) (times : Times) (cmds : List Command)
    (h : buildCmds cfg t b out times = .ok cmds) :
    ∃ bases, buildCmds cfg t { b with args := [] } out times = .ok bases ∧
      Each (fun cmd base => Inserted (argsOf t cmd b.args) base cmd) cmds bases := by
  cases t with
  | icarus =>
    simp only [buildCmds] at h ⊢
    split at h
    · cases h
    · split at h
      · cases h
      · next ho =>
        rw [if_neg (by simpa using only_noArgs (by simpa using ho))]
        refine fresh_noArgs _ _ _ _ _ _ _ _ h fun c hc => ⟨_, rfl, ?_⟩
        cases hc
        refine each_one ?_
        simp only [argsOf]
        pieces
  | questa =>
    simp only [buildCmds] at h ⊢
    cases hp : perSource (fun p => [lit "vcom"] ++ (if b.verbose then [] else [lit "-quiet"]) ++ [lit "-work", b.library] ++ argsFor b .vhdl ++ [p])
      (fun p => [lit "vlog"] ++ (if b.verbose then [] else [lit "-quiet"]) ++ (if b.always then [] else [lit "-incr"]) ++ [lit "-work", b.library, lit "-sv"] ++
        defs .questa b ++ incs .questa b ++ argsFor b .verilog ++ [p]) (b.sources ++ b.vhdlSources ++ b.verilogSources) with
    | error e => rw [hp] at h; cases h
    | ok l =>
      rw [hp] at h; cases h
      obtain ⟨m, hm, he⟩ := perSource_each (R := fun cmd base => Inserted (argsOf .questa cmd b.args) base cmd)
        (f' := fun p => [lit "vcom"] ++ (if b.verbose then [] else [lit "-quiet"]) ++ [lit "-work", b.library] ++ argsFor { b with args := [] } .vhdl ++ [p])
        (g' := fun p => [lit "vlog"] ++ (if b.verbose then [] else [lit "-quiet"]) ++ (if b.always then [] else [lit "-incr"]) ++ [lit "-work", b.library, lit "-sv"] ++
          defs .questa { b with args := [] } ++ incs .questa { b with args := [] } ++ argsFor { b with args := [] } .verilog ++ [p])
        (fun p => by
          rw [argsOf_vhdl (.inl rfl) (.inl rfl), ← argsFor_spec]
          pieces)
        (fun p => by
          rw [argsOf_verilog (.inl rfl) (.inl rfl), ← argsFor_spec]
          pieces) _ _ hp
      simp only [hm]
      exact ⟨_, rfl, .cons _ _ _ _ (gains_none (.inl rfl) rfl (by decide +kernel)) he⟩
  | questaQis =>
    simp only [buildCmds] at h ⊢
    cases h
    refine ⟨_, rfl, each_one ?_⟩
    simp only [argsOf]
    pieces
  | ghdl =>
    simp only [buildCmds] at h ⊢
    split at h
    · cases h
    · next ho =>
      rw [if_neg (by simpa using only_noArgs (by simpa using ho))]
      cases h
      refine ⟨_, rfl, .cons _ _ _ _ ?_ ?_⟩
      · simp only [argsOf]
        pieces
      · cases b.toplevel with
        | none => exact .nil
        | some top =>
          refine each_one ?_
          simp only [argsOf]
          pieces
  | nvc =>
    simp only [buildCmds] at h ⊢
    split at h
    · cases h
    · next ho =>
      rw [if_neg (by simpa using only_noArgs (by simpa using ho))]
      cases h
      refine ⟨_, rfl, each_one ?_⟩
      simp only [argsOf]
      pieces
  | verilator =>
    simp only [buildCmds] at h ⊢
    split at h
    · cases h
    · split at h
      · cases h
      · next ho =>
        rw [if_neg (by simpa using only_noArgs (by simpa using ho))]
        split at h
        · cases h
        · cases h
          refine ⟨_, rfl, .cons _ _ _ _ ?_ (each_one ?_)⟩
          · simp only [argsOf, List.append_assoc, List.cons_append, List.getElem?_cons_succ, List.getElem?_cons_zero]
            rw [if_neg (by decide +kernel)]
            simp only [← List.append_assoc, ← List.cons_append]
            pieces
          · simp only [argsOf, List.getElem?_cons_succ, List.getElem?_cons_zero, if_true]
            exact inserted_nil _
  | xcelium =>
    simp only [buildCmds] at h ⊢
    split at h
    · cases h
    · next hw =>
      rw [if_neg hw]
      split at h
      · cases h
      · split at h
        · cases h
        · next ho =>
          rw [if_neg ho]
          cases h
          refine ⟨_, rfl, each_one ?_⟩
          simp only [argsOf]
          pieces
  | vcs =>
    simp only [buildCmds] at h ⊢
    split at h
    · cases h
    · next ho =>
      rw [if_neg ho]
      refine fresh_noArgs _ _ _ _ _ _ _ _ h fun c hc => ?_
      split at hc
      · cases hc
      · cases hc
        refine ⟨_, rfl, each_one ?_⟩
        simp only [argsOf]
        pieces
  | dsim =>
    simp only [buildCmds] at h ⊢
    split at h
    · cases h
    · next ho =>
      rw [if_neg (by simpa using only_noArgs (by simpa using ho))]
      refine fresh_noArgs _ _ _ _ _ _ _ _ h fun c hc => ⟨_, rfl, ?_⟩
      cases hc
      refine each_one ?_
      simp only [argsOf]
      pieces
  | riviera => exact aldec_args cfg .riviera b out times cmds (.inl rfl) h
  | activeHdl => exact aldec_args cfg .activeHdl b out times cmds (.inr rfl) h

/-- Build arguments for both languages, and a source of each. -/
def mixedEx : BuildOpts := { buildEx with
  sources := [(.vhdl, lit "/work/a.vhd"), (.verilog, lit "/work/b.sv")]
  vhdlSources := [], verilogSources := []
  args := [(some .vhdl, lit "-2008"), (none, lit "-lint"), (some .verilog, lit "-mfcu")] }

example : (buildCmds cfgEx .questa mixedEx none (fun _ => none)).toOption.map (fun l => l.map fun c => (c.head?, argsOf .questa c mixedEx.args)) =
    some [(some (lit "vlib"), []), (some (lit "vcom"), [lit "-2008", lit "-lint"]), (some (lit "vlog"), [lit "-lint", lit "-mfcu"])] := by
  decide +kernel

/-! ### The time scale -/

/-- No word is `f`. -/
def Free (f : Text) (l : List Text) : Prop := ∀ a ∈ l, a ≠ f

theorem free_nil {f} : Free f [] := fun _ h => absurd h (by simp)
theorem free_cons {f a l} (h : a ≠ f) (hl : Free f l) : Free f (a :: l) := fun x hx => by
  rcases List.mem_cons.1 hx with rfl | hx
  · exact h
  · exact hl x hx
theorem free_append {f l m} (h : Free f l) (hl : Free f m) : Free f (l ++ m) := fun x hx => by
  rcases List.mem_append.1 hx with hx | hx
  · exact h x hx
  · exact hl x hx
theorem free_ite {f l m} {c : Prop} [Decidable c] (h : Free f l) (hl : Free f m) : Free f (if c then l else m) := by
  split <;> assumption
theorem free_map {f : Text} {α : Type} {g : α → Text} {l : List α} (h : ∀ x, g x ≠ f) : Free f (l.map g) := fun x hx => by
  obtain ⟨y, _, rfl⟩ := List.mem_map.1 hx; exact h y

theorem pre_ne {p f : Text} (h : p.isPrefixOf f = false) (x : Text) : p ++ x ≠ f := by
  rintro rfl
  have : p.isPrefixOf (p ++ x) = true := List.isPrefixOf_iff_prefix.2 ⟨x, rfl⟩
  rw [h] at this; cases this

theorem noOption_ne {a f : Text} (h : NoOption a) (hf : f.head? = some 45) : a ≠ f := by
  rintro rfl; exact (h 45 hf).1 rfl

theorem free_paths {cfg t b l f} (h : Tidy cfg t b) (hf : f.head? = some 45)
    (hl : ∀ s ∈ l, s ∈ b.sources ++ b.vhdlSources ++ b.verilogSources) : Free f (RunCmd.paths l) := fun x hx => by
  obtain ⟨s, hs, rfl⟩ := List.mem_map.1 hx
  exact noOption_ne (h.paths s (hl s hs)) hf

theorem following_ne {f a : Text} {l : List Text} (h : a ≠ f) : following f (a :: l) = following f l := by
  cases l with
  | nil => rfl
  | cons b l => simp [following, h]

theorem following_append {f : Text} {l m : List Text} (h : Free f l) : following f (l ++ m) = following f m := by
  induction l with
  | nil => rfl
  | cons a l ih =>
    rw [List.cons_append, following_ne (h a (by simp)), ih fun x hx => h x (List.mem_cons_of_mem _ hx)]

theorem following_none {f : Text} {l : List Text} (h : Free f l) : following f l = [] := by
  have := following_append (m := []) h
  rw [List.append_nil] at this
  exact this

theorem following_one {f w : Text} {l m : List Text} (h : Free f l) (hm : Free f m) : following f (l ++ [f, w] ++ m) = [w] := by
  rw [List.append_assoc, following_append h]
  simp only [List.cons_append, List.nil_append, following, if_true]
  rw [following_none hm]

theorem define_ne {f : Text} {t : Tool} (h : ∀ p ∈ [lit "-D", lit "'+define+", lit "-define ", lit "+define+"], p.isPrefixOf f = false)
    (d : Text × Text) : defineOpt t d ≠ f := by
  unfold defineOpt
  cases t <;> simp only [List.append_assoc] <;> exact pre_ne (h _ (by simp)) _

theorem include_ne {f : Text} {t : Tool} (h : ∀ p ∈ [lit "-I", lit "+incdir+", lit "-incdir "], p.isPrefixOf f = false)
    (d : Text) : includeOpt t d ≠ f := by
  unfold includeOpt
  cases t <;> exact pre_ne (h _ (by simp)) _

theorem param_ne {f : Text} {t : Tool} {top : Option Text}
    (h : ∀ p ∈ [lit "-P", lit "-G", lit "-gpg \"", lit "-pvalue+", lit "-defparam ", lit "-g"], p.isPrefixOf f = false)
    (d : Text × Text) : paramOpt top t d ≠ f := by
  unfold paramOpt
  cases t <;> simp only [List.append_assoc] <;> exact pre_ne (h _ (by simp)) _

theorem free_defs {f t b} (h : ∀ p ∈ [lit "-D", lit "'+define+", lit "-define ", lit "+define+"], p.isPrefixOf f = false) :
    Free f (defs t b) := free_map (define_ne h)
theorem free_incs {f t b} (h : ∀ p ∈ [lit "-I", lit "+incdir+", lit "-incdir "], p.isPrefixOf f = false) : Free f (incs t b) :=
  free_map (include_ne h)
theorem free_params {f t b}
    (h : ∀ p ∈ [lit "-P", lit "-G", lit "-gpg \"", lit "-pvalue+", lit "-defparam ", lit "-g"], p.isPrefixOf f = false) :
    Free f (params t b) := free_map (param_ne h)

/-- Every piece of a command is free of a flag. -/
macro "free" : tactic => `(tactic| (repeat' (first
  | with_reducible exact free_nil | with_reducible assumption
  | with_reducible refine free_append ?_ ?_ | with_reducible refine free_cons ?_ ?_ | with_reducible refine free_ite ?_ ?_
  | with_reducible exact free_defs (by decide +kernel) | with_reducible exact free_incs (by decide +kernel)
  | with_reducible exact free_params (by decide +kernel))))

/-- The full claim: a build that runs uses the time scale it is given, unless the documentation excludes it. -/
def C137_timescale_full : Prop := ∀ (cfg : Cfg) (t : Tool) (b : BuildOpts) (out : Option Nat) (times : Times) (cmd : Command)
    (cmds : List Command) (ts : Text × Text), ScaleAtBuild t → Tidy cfg t b →
    (∀ f ∈ [lit "-timescale", lit "--timescale", lit "-f"], f ∉ b.args.map (·.2)) →
    buildCmds cfg t b out times = .ok (cmd :: cmds) → b.timescale = some ts → UsesScale t b cmd (ts.1 ++ [47] ++ ts.2)

theorem free_own {b : BuildOpts} {f : Text} (h : ∀ g ∈ [lit "-timescale", lit "--timescale", lit "-f"], g ∉ b.args.map (·.2))
    (hf : f ∈ [lit "-timescale", lit "--timescale", lit "-f"]) : Free f (allArgs b) := fun a ha e => h f hf (e ▸ ha)

/-- The time scale, if there is one, stands at one place behind its flag. -/
def Scaled (f : Text) (ts : Option (Text × Text)) (w : Text × Text → Text) (cmd : Command) : Prop :=
  ∃ l m, Free f l ∧ Free f m ∧ cmd = l ++ (match ts with | some ts => [f, w ts] | none => []) ++ m

theorem scaled_some {f w cmd} {ts : Text × Text} (h : Scaled f (some ts) w cmd) : following f cmd = [w ts] := by
  obtain ⟨l, m, hl, hm, rfl⟩ := h
  exact following_one hl hm

theorem scaled_none {f w cmd} (h : Scaled f none w cmd) : following f cmd = [] := by
  obtain ⟨l, m, hl, hm, rfl⟩ := h
  exact following_none (free_append (free_append hl free_nil) hm)

theorem scaled_right {f ts w cmd r} (h : Scaled f ts w cmd) (hr : Free f r) : Scaled f ts w (cmd ++ r) := by
  obtain ⟨l, m, hl, hm, rfl⟩ := h
  exact ⟨l, m ++ r, hl, free_append hm hr, by simp only [List.append_assoc]⟩

theorem scaled_here {f ts w l s} (h : Free f l) (hs : s = match ts with | some ts => [f, w ts] | none => []) : Scaled f ts w (l ++ s) :=
  ⟨l, [], h, free_nil, by rw [hs, List.append_nil]⟩

theorem icarus_scale {cfg b out times cmds} (h : Tidy cfg .icarus b) (hc : buildCmds cfg .icarus b out times = .ok cmds)
    (ho : ∀ f ∈ [lit "-timescale", lit "--timescale", lit "-f"], f ∉ b.args.map (·.2)) :
    ∀ cmd ∈ cmds, Scaled (lit "-f") b.timescale (fun _ => b.buildDir ++ lit "/cmds.f") cmd := by
  have hf : (lit "-f").head? = some 45 := by decide +kernel
  have hbd : ∀ x : Text, b.buildDir ++ x ≠ lit "-f" := fun x => noOption_ne (noOption_append x h.buildDir h.buildDir') hf
  have hown : Free (lit "-f") (allArgs b) := free_own ho (by simp)
  have hp : Free (lit "-f") (RunCmd.paths (b.sources ++ b.verilogSources)) := free_paths h hf (by
    intro s hs
    simp only [List.mem_append] at hs ⊢
    rcases hs with hs | hs
    · exact .inl (.inl hs)
    · exact .inr hs)
  simp only [buildCmds] at hc
  split at hc
  · cases hc
  · next top htop =>
    have htop : top ≠ lit "-f" := noOption_ne (h.toplevel top htop) hf
    split at hc
    · cases hc
    · intro cmd hcmd
      rcases unlessFresh_ok hc with hc | ⟨rfl, _⟩
      · cases hc
        rw [List.mem_singleton.1 hcmd]
        refine scaled_right (scaled_right (scaled_here ?_ ?_) ?_) ?_
        · free
          all_goals first | exact hbd _ | decide +kernel
        · cases b.timescale <;> rfl
        · free
        · free
          exact hbd _
      · cases hcmd

theorem verilator_scale {cfg b out times cmds} (h : Tidy cfg .verilator b) (hc : buildCmds cfg .verilator b out times = .ok cmds)
    (ho : ∀ f ∈ [lit "-timescale", lit "--timescale", lit "-f"], f ∉ b.args.map (·.2)) :
    ∃ cmd mk, cmds = [cmd, mk] ∧ Scaled (lit "--timescale") b.timescale slash cmd ∧ following (lit "--timescale") mk = [] := by
  have hf : (lit "--timescale").head? = some 45 := by decide +kernel
  have hbd : b.buildDir ≠ lit "--timescale" := noOption_ne h.buildDir hf
  have hown : Free (lit "--timescale") (allArgs b) := free_own ho (by simp)
  have hp : Free (lit "--timescale") (RunCmd.paths (b.sources ++ b.verilogSources)) := free_paths h hf (by
    intro s hs
    simp only [List.mem_append] at hs ⊢
    rcases hs with hs | hs
    · exact .inl (.inl hs)
    · exact .inr hs)
  have hsh : cfg.shareDir ++ lit "/lib/verilator/verilator.cpp" ≠ lit "--timescale" := noOption_ne (noOption_append _ h.shareDir h.shareDir') hf
  have hj : cfg.jobs ≠ lit "--timescale" := noOption_ne h.jobs hf
  simp only [buildCmds] at hc
  split at hc
  · cases hc
  · next exe he =>
    have he : exe ≠ lit "--timescale" := noOption_ne (h.exe exe he) hf
    split at hc
    · cases hc
    · split at hc
      · cases hc
      · next top htop =>
        have htop : top ≠ lit "--timescale" := noOption_ne (h.toplevel top htop) hf
        cases hc
        refine ⟨_, _, rfl, ?_, following_none ?_⟩
        · refine scaled_right (scaled_right (scaled_right (scaled_right (scaled_right (scaled_here ?_ ?_) ?_) ?_) ?_) ?_) ?_
          · free
            all_goals first | decide +kernel | skip
            simp only [List.append_assoc]
            exact pre_ne (by decide +kernel) _
          · cases b.timescale <;> rfl
          all_goals free
        · free
          all_goals first | decide +kernel | skip
          cases b.waves <;> decide +kernel

theorem xcelium_scale {cfg b out times cmds} (h : Tidy cfg .xcelium b) (hc : buildCmds cfg .xcelium b out times = .ok cmds)
    (ho : ∀ f ∈ [lit "-timescale", lit "--timescale", lit "-f"], f ∉ b.args.map (·.2)) :
    ∃ cmd, cmds = [cmd] ∧ Scaled (lit "-timescale") b.timescale slash cmd := by
  have hf : (lit "-timescale").head? = some 45 := by decide +kernel
  have hbd : ∀ x : Text, b.buildDir ++ x ≠ lit "-timescale" := fun x => noOption_ne (noOption_append x h.buildDir h.buildDir') hf
  have hown : Free (lit "-timescale") (allArgs b) := free_own ho (by simp)
  have hp : Free (lit "-timescale") (RunCmd.paths (b.sources ++ b.vhdlSources ++ b.verilogSources)) := free_paths h hf (fun _ h => h)
  simp only [buildCmds] at hc
  split at hc
  · cases hc
  · split at hc
    · cases hc
    · split at hc
      · cases hc
      · cases hc
        refine ⟨_, rfl, ?_⟩
        refine scaled_right (scaled_right (scaled_right (scaled_right (scaled_right (scaled_right (scaled_here ?_ ?_) ?_) ?_) ?_) ?_) ?_) ?_
        · free
          all_goals first | exact hbd _ | decide +kernel | exact pre_ne (by decide +kernel) _
        · cases b.timescale <;> rfl
        all_goals free
        exact pre_ne (by decide +kernel) _

theorem questaQis_scale {cfg b out times cmds} (h : Tidy cfg .questaQis b) (hc : buildCmds cfg .questaQis b out times = .ok cmds)
    (ho : ∀ f ∈ [lit "-timescale", lit "--timescale", lit "-f"], f ∉ b.args.map (·.2)) :
    ∃ cmd, cmds = [cmd] ∧ Scaled (lit "-timescale") b.timescale slash cmd := by
  have hf : (lit "-timescale").head? = some 45 := by decide +kernel
  have hbd : ∀ x : Text, b.buildDir ++ x ≠ lit "-timescale" := fun x => noOption_ne (noOption_append x h.buildDir h.buildDir') hf
  have hlib : ∀ x : Text, b.library ++ x ≠ lit "-timescale" := fun x => noOption_ne (noOption_append x h.library h.library') hf
  have hlib0 : b.library ≠ lit "-timescale" := noOption_ne h.library hf
  have hown : Free (lit "-timescale") (allArgs b) := free_own ho (by simp)
  have hp : Free (lit "-timescale") (RunCmd.paths (b.sources ++ b.vhdlSources ++ b.verilogSources)) := free_paths h hf (fun _ h => h)
  simp only [buildCmds] at hc
  cases hc
  refine ⟨_, rfl, ?_⟩
  refine scaled_right (scaled_right (scaled_right (scaled_here ?_ ?_) ?_) ?_) ?_
  · free
    all_goals first | exact hbd _ | decide +kernel | (simp only [List.append_assoc]; exact hlib _)
  · cases b.timescale <;> rfl
  all_goals free
  decide +kernel

/-- **C137** Verilator, Xcelium, Questa's one-step flow and Icarus Verilog compile with the time scale they are given; without one,
they are given none. Missing: GHDL and DSim, which ignore it. -/
theorem C137_timescale_partial (cfg : Cfg) (t : Tool) (b : BuildOpts) (out : Option Nat) (times : Times) (cmd : Command) (cmds : List Command)
    (ht : t = .icarus ∨ t = .questaQis ∨ t = .verilator ∨ t = .xcelium) (h : Tidy cfg t b)
    (ho : ∀ f ∈ [lit "-timescale", lit "--timescale", lit "-f"], f ∉ b.args.map (·.2))
    (hc : buildCmds cfg t b out times = .ok (cmd :: cmds)) :
    (∀ ts, b.timescale = some ts → UsesScale t b cmd (ts.1 ++ [47] ++ ts.2)) ∧
    (b.timescale = none → ∀ c ∈ cmd :: cmds, ∀ s, ¬ UsesScale t b c s) := by
  rcases ht with rfl | rfl | rfl | rfl
  · have := icarus_scale h hc ho
    refine ⟨fun ts hts => ?_, fun hts c hcm s hs => ?_⟩
    · have := this cmd (by simp)
      rw [hts] at this
      exact .file _ rfl (scaled_some this) (by unfold cmdsFile slash; rw [hts])
    · have := this c hcm
      rw [hts] at this
      cases hs with
      | flag f s h1 => cases h1
      | file s _ h1 => rw [scaled_none this] at h1; cases h1
  · obtain ⟨c, e, this⟩ := questaQis_scale h hc ho
    cases e
    refine ⟨fun ts hts => ?_, fun hts c hcm s hs => ?_⟩
    · rw [hts] at this
      exact .flag _ _ rfl (scaled_some this)
    · rw [hts] at this
      rw [List.mem_singleton.1 hcm] at hs
      cases hs with
      | flag f s h1 h2 => cases h1; rw [scaled_none this] at h2; cases h2
      | file s h1 => cases h1
  · obtain ⟨c, mk, e, this, hm⟩ := verilator_scale h hc ho
    cases e
    refine ⟨fun ts hts => ?_, fun hts c hcm s hs => ?_⟩
    · rw [hts] at this
      exact .flag _ _ rfl (scaled_some this)
    · rw [hts] at this
      cases hs with
      | flag f s h1 h2 =>
        cases h1
        rcases List.mem_cons.1 hcm with rfl | hcm
        · rw [scaled_none this] at h2; cases h2
        · rw [List.mem_singleton.1 hcm, hm] at h2; cases h2
      | file s h1 => cases h1
  · obtain ⟨c, e, this⟩ := xcelium_scale h hc ho
    cases e
    refine ⟨fun ts hts => ?_, fun hts c hcm s hs => ?_⟩
    · rw [hts] at this
      exact .flag _ _ rfl (scaled_some this)
    · rw [hts] at this
      rw [List.mem_singleton.1 hcm] at hs
      cases hs with
      | flag f s h1 h2 => cases h1; rw [scaled_none this] at h2; cases h2
      | file s h1 => cases h1

/-- **C137** is false of DSim, which ignores the time scale of a build. -/
theorem C137_timescale_counterexample : ¬ C137_timescale_full := by
  intro h
  cases hc : buildCmds cfgEx .dsim buildEx none (fun _ => none) with
  | error e =>
    have : (buildCmds cfgEx .dsim buildEx none (fun _ => none)).isOk = true := by decide +kernel
    rw [hc] at this; cases this
  | ok l =>
    cases l with
    | nil =>
      have : (buildCmds cfgEx .dsim buildEx none (fun _ => none)).toOption ≠ some [] := by decide +kernel
      rw [hc] at this; exact this rfl
    | cons cmd cmds =>
      have := h cfgEx .dsim buildEx none (fun _ => none) cmd cmds (lit "1ns", lit "1ps") trivial (tidyEx .dsim) (by decide +kernel) hc rfl
      cases this with
      | flag f s h1 => cases h1
      | file s h1 => cases h1

example : (buildCmds cfgEx .verilator buildEx none (fun _ => none)).toOption.map (fun l => l.map (following (lit "--timescale"))) =
    some [[lit "1ns/1ps"], []] := by decide +kernel
example : ∀ f ∈ [lit "-timescale", lit "--timescale", lit "-f"], f ∉ buildEx.args.map (·.2) := by decide +kernel

/-- **C137** GHDL's mcode backend simulates with the precision of the time scale of a test as its resolution, and every other precision
than those of GHDL is refused. -/
theorem C137_ghdl (cfg : Cfg) (last : Option BuildOpts) (ps : List (Text × Text)) (dir : Text) (o : TestOpts) (ts : Text × Text)
    (hm : cfg.mcode = true) (ht : o.timescale = some ts) :
    (∀ cmds, testCmds cfg .ghdl last ps dir o = .ok cmds → ∃ u, ts.2 = lit "1" ++ u ∧
      (u ∈ [lit "fs", lit "ps", lit "ns", lit "us", lit "ms", lit "s"]) ∧
      ∃ cmd, cmds = [cmd] ∧ (lit "--time-resolution=" ++ (if u = lit "s" then lit "sec" else u)) ∈ cmd) ∧
    (o.preCmd = none → (∃ u ∈ [lit "fs", lit "ps", lit "ns", lit "us", lit "ms", lit "s"], ts.2 = lit "1" ++ u) →
      ∃ cmds, testCmds cfg .ghdl last ps dir o = .ok cmds) := by
  simp only [testCmds, ht, hm, if_true]
  constructor
  · intro cmds h
    split at h
    · cases h
    · cases hr : ghdlResolution ts.2 with
      | error e => rw [hr] at h; cases h
      | ok r =>
        rw [hr] at h; cases h
        have key : ∃ u, ts.2 = lit "1" ++ u ∧ (u ∈ [lit "fs", lit "ps", lit "ns", lit "us", lit "ms", lit "s"]) ∧
            r = if u = lit "s" then lit "sec" else u := by
          unfold ghdlResolution at hr
          repeat' split at hr
          all_goals cases hr
          · exact ⟨lit "fs", by assumption, by decide +kernel, by decide +kernel⟩
          · exact ⟨lit "ps", by assumption, by decide +kernel, by decide +kernel⟩
          · exact ⟨lit "ns", by assumption, by decide +kernel, by decide +kernel⟩
          · exact ⟨lit "us", by assumption, by decide +kernel, by decide +kernel⟩
          · exact ⟨lit "ms", by assumption, by decide +kernel, by decide +kernel⟩
          · exact ⟨lit "s", by assumption, by decide +kernel, by decide +kernel⟩
        obtain ⟨u, h1, h2, rfl⟩ := key
        refine ⟨u, h1, h2, _, rfl, ?_⟩
        simp only [List.mem_append, List.mem_cons]
        simp
  · intro hp hu
    have : (ghdlResolution ts.2).isOk = true := by
      obtain ⟨u, hu, e⟩ := hu
      rw [e]
      simp only [List.mem_cons, List.not_mem_nil, or_false] at hu
      rcases hu with rfl | rfl | rfl | rfl | rfl | rfl <;> decide +kernel
    simp only [hp, Option.isSome_none, Bool.false_eq_true, if_false]
    cases hr : ghdlResolution ts.2 with
    | error e => rw [hr] at this; cases this
    | ok r => exact ⟨_, rfl⟩

end Verif
