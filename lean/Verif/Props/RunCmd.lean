import Verif.Spec.RunCmd
import Verif.Lemmas.RunnerText
/-!
# C131: what is given to the runner reaches the simulator
-/
namespace Verif

open RunCmd Runner Spec

theorem after_eq (p t : Text) : afterPrefix p (p ++ t) = some t := by
  unfold afterPrefix
  rw [if_pos (List.isPrefixOf_iff_prefix.2 (List.prefix_append p t)), List.drop_left]

theorem nameValue_eq {d : Text × Text} (h : 61 ∉ d.1) : nameValue (nameEq d) = some d := by
  unfold nameValue nameEq
  rw [if_pos (by simp)]
  have h1 : ∀ x ∈ d.1, (x != 61) = true := fun x hx => by
    rw [bne_iff_ne]; rintro rfl; exact h hx
  rw [List.append_assoc, List.takeWhile_append_of_pos h1, List.dropWhile_append_of_pos h1]
  simp

theorem define_opt {t : Tool} {d : Text × Text} (h : 61 ∉ d.1) (h1 : t ≠ .xcelium) (h2 : t ≠ .ghdl) (h3 : t ≠ .nvc) :
    defineOf t (defineOpt t d) = some d := by
  cases t <;> first
    | exact absurd rfl h1
    | exact absurd rfl h2
    | exact absurd rfl h3
    | (simp only [defineOf, defineOpt, after_eq]; exact nameValue_eq h)
    | (simp only [defineOf, defineOpt, List.append_assoc, after_eq, Option.bind_some, beforeLast]
       rw [if_pos (by simp)]
       simp only [Option.bind_some, List.dropLast_concat]
       exact nameValue_eq h)

theorem define_xcelium {d : Text × Text} (h : 61 ∉ d.1) : defineOf .xcelium (defineOpt .xcelium d) = some (d.1, svEscapeString d.2) := by
  have : defineOpt .xcelium d = lit "-define " ++ nameEq (d.1, svEscapeString d.2) := by simp [defineOpt, nameEq]
  simp only [defineOf, this, after_eq]
  exact nameValue_eq (d := (d.1, svEscapeString d.2)) h

theorem include_opt {t : Tool} {p : Text} (h2 : t ≠ .ghdl) (h3 : t ≠ .nvc)
    (h : t = .riviera ∨ t = .activeHdl → p ≠ [] ∧ ∀ c ∈ p, c ≠ 36 ∧ c ≠ 91 ∧ c ≠ 59) :
    includeOf t (includeOpt t p) = some p := by
  cases t <;> first
    | exact absurd rfl h2
    | exact absurd rfl h3
    | (simp only [includeOf, includeOpt, after_eq]; done)
    | (simp only [includeOf, includeOpt, after_eq, Option.bind_some]
       exact tclWord_value p (h (by simp)).1 (h (by simp)).2)

theorem param_opt {t : Tool} {top : Text} {d : Text × Text} (h : 61 ∉ d.1) (hb : t = .xcelium → 32 ∉ d.1)
    (h1 : t ≠ .riviera) (h2 : t ≠ .activeHdl) : paramOf t top (paramOpt (some top) t d) = some d := by
  cases t <;> first
    | exact absurd rfl h1
    | exact absurd rfl h2
    | (simp only [paramOf, paramOpt, Option.getD_some, after_eq]; exact nameValue_eq h)
    | (simp only [paramOf, paramOpt, List.append_assoc, after_eq, Option.bind_some, beforeLast]
       rw [if_pos (by simp)]
       have h1 : ∀ x ∈ d.1, (x != 32) = true := fun x hx => by
         rw [bne_iff_ne]; rintro rfl; exact hb rfl hx
       have e : (d.1 ++ (lit " => " ++ (d.2 ++ [34]))).dropLast = d.1 ++ (lit " => " ++ d.2) := by
         rw [show d.1 ++ (lit " => " ++ (d.2 ++ [34])) = (d.1 ++ (lit " => " ++ d.2)) ++ [34] by simp, List.dropLast_concat]
       have e2 : ∀ v, (lit " => " ++ v).dropWhile (· != 32) = lit " => " ++ v := fun v => by simp [lit, ofStr]
       have e3 : ∀ v, (lit " => " ++ v).takeWhile (· != 32) = [] := fun v => by simp [lit, ofStr]
       rw [e]
       simp only [Option.bind_some, nameArrow]
       rw [List.dropWhile_append_of_pos h1, List.takeWhile_append_of_pos h1, e2, e3, after_eq]
       simp)

/-- Evaluates the readers on fixed beginnings of arguments. -/
macro "read" : tactic => `(tactic| simp [defineOf, includeOf, paramOf, afterPrefix, lit, ofStr, defineOpt, includeOpt, paramOpt, List.isPrefixOf])

theorem include_define (t : Tool) (d : Text × Text) : includeOf t (defineOpt t d) = none := by cases t <;> read
theorem define_include (t : Tool) (p : Text) : defineOf t (includeOpt t p) = none := by cases t <;> read
theorem define_param (t : Tool) (n : Option Text) (d : Text × Text) : defineOf t (paramOpt n t d) = none := by cases t <;> read
theorem include_param (t : Tool) (n : Option Text) (d : Text × Text) : includeOf t (paramOpt n t d) = none := by cases t <;> read
theorem param_define (t : Tool) (n : Text) (d : Text × Text) (h1 : t ≠ .riviera) (h2 : t ≠ .activeHdl) :
    paramOf t n (defineOpt t d) = none := by cases t <;> first | exact absurd rfl h1 | exact absurd rfl h2 | read
theorem param_include (t : Tool) (n : Text) (p : Text) (h1 : t ≠ .riviera) (h2 : t ≠ .activeHdl) :
    paramOf t n (includeOpt t p) = none := by cases t <;> first | exact absurd rfl h1 | exact absurd rfl h2 | read

theorem noOption_read {a : Text} (h : NoOption a) (t : Tool) :
    defineOf t a = none ∧ includeOf t a = none ∧ (t ≠ .riviera → t ≠ .activeHdl → ∀ n, paramOf t n a = none) := by
  cases a with
  | nil => cases t <;> read
  | cons c a =>
    obtain ⟨h1, h2, h3⟩ := h c rfl
    have h1 := Ne.symm h1
    have h2 := Ne.symm h2
    have h3 := Ne.symm h3
    cases t <;> simp [defineOf, includeOf, paramOf, afterPrefix, lit, ofStr, List.isPrefixOf, h1, h2, h3]

/-! ### Reading a command -/

/-- What a command tells a simulator. -/
structure Reading (t : Tool) (top : Option Text) (l : List Text) (D : List (Text × Text)) (I : List Text)
    (P : List (Text × Text)) : Prop where
  defines : l.filterMap (defineOf t) = D
  includes : l.filterMap (includeOf t) = I
  params : t ≠ .riviera → t ≠ .activeHdl → ∀ n, top = some n → l.filterMap (paramOf t n) = P

/-- Nothing to read. -/
def Still (t : Tool) (top : Option Text) (a : Text) : Prop :=
  defineOf t a = none ∧ includeOf t a = none ∧ (t ≠ .riviera → t ≠ .activeHdl → ∀ n, top = some n → paramOf t n a = none)

def Silent (t : Tool) (top : Option Text) (l : List Text) : Prop := ∀ a ∈ l, Still t top a

theorem quiet_nil {t top} : Silent t top [] := fun _ h => absurd h (by simp)
theorem quiet_cons {t top a l} (h : Still t top a) (hl : Silent t top l) : Silent t top (a :: l) := fun x hx => by
  rcases List.mem_cons.1 hx with rfl | hx
  · exact h
  · exact hl x hx
theorem quiet_append {t top l m} (h : Silent t top l) (hl : Silent t top m) : Silent t top (l ++ m) := fun x hx => by
  rcases List.mem_append.1 hx with hx | hx
  · exact h x hx
  · exact hl x hx
theorem quiet_ite {t top l m} {c : Prop} [Decidable c] (h : Silent t top l) (hl : Silent t top m) :
    Silent t top (if c then l else m) := by split <;> assumption

theorem reading_quiet {t top l} (h : Silent t top l) : Reading t top l [] [] [] :=
  ⟨List.filterMap_eq_nil_iff.2 fun a ha => (h a ha).1, List.filterMap_eq_nil_iff.2 fun a ha => (h a ha).2.1,
    fun h1 h2 n hn => List.filterMap_eq_nil_iff.2 fun a ha => (h a ha).2.2 h1 h2 n hn⟩

theorem reading_append {t top l m D I P D' I' P'} (h : Reading t top l D I P) (h' : Reading t top m D' I' P') :
    Reading t top (l ++ m) (D ++ D') (I ++ I') (P ++ P') :=
  ⟨by rw [List.filterMap_append, h.defines, h'.defines], by rw [List.filterMap_append, h.includes, h'.includes],
    fun h1 h2 n hn => by rw [List.filterMap_append, h.params h1 h2 n hn, h'.params h1 h2 n hn]⟩

theorem reading_right {t top l m D I P} (h : Reading t top l D I P) (hm : Silent t top m) : Reading t top (l ++ m) D I P := by
  have := reading_append h (reading_quiet hm)
  simpa only [List.append_nil] using this

theorem filterMap_map_some {α β γ : Type} (l : List α) (g : α → β) (f : β → Option γ) (k : α → γ) (h : ∀ a ∈ l, f (g a) = some (k a)) :
    (l.map g).filterMap f = l.map k := by
  induction l with
  | nil => rfl
  | cons a l ih =>
    rw [List.map_cons, List.filterMap_cons_some (h a List.mem_cons_self), ih fun a ha => h a (List.mem_cons_of_mem _ ha)]
    rfl

theorem filterMap_map_none {α β γ : Type} (l : List α) (g : α → β) (f : β → Option γ) (h : ∀ a, f (g a) = none) :
    (l.map g).filterMap f = [] := by
  induction l with
  | nil => rfl
  | cons a l ih => rw [List.map_cons, List.filterMap_cons_none (h a), ih]

/-- The defines a simulator sees. -/
def seen (t : Tool) (d : Text × Text) : Text × Text := if t = .xcelium then (d.1, svEscapeString d.2) else d

theorem seen_map {t : Tool} (h : t ≠ .xcelium) (l : List (Text × Text)) : l.map (seen t) = l := by
  have : seen t = id := by funext d; simp [seen, h]
  rw [this, List.map_id]

theorem reading_defs {cfg t b} (h : Tidy cfg t b) (h2 : t ≠ .ghdl) (h3 : t ≠ .nvc) :
    Reading t b.toplevel (defs t b) (b.defines.map (seen t)) [] [] := by
  refine ⟨filterMap_map_some _ _ _ _ fun d hd => ?_, filterMap_map_none _ _ _ fun d => include_define t d,
    fun h1 h2 n _ => filterMap_map_none _ _ _ fun d => param_define t n d h1 h2⟩
  have hn := h.names d (List.mem_append_left _ hd)
  by_cases hx : t = .xcelium
  · subst hx; exact define_xcelium hn
  · rw [define_opt hn hx h2 h3]; simp [seen, hx]

theorem reading_incs {cfg t b} (h : Tidy cfg t b) (h2 : t ≠ .ghdl) (h3 : t ≠ .nvc) :
    Reading t b.toplevel (incs t b) [] b.includes [] := by
  refine ⟨filterMap_map_none _ _ _ fun d => define_include t d, ?_,
    fun h1 h2 n _ => filterMap_map_none _ _ _ fun d => param_include t n d h1 h2⟩
  rw [incs, filterMap_map_some b.includes (includeOpt t) (includeOf t) id fun p hp => include_opt h2 h3 fun ht => h.tcl ht p (by simp [hp]), List.map_id]

theorem reading_params {cfg t b} (h : Tidy cfg t b) : Reading t b.toplevel (params t b) [] [] b.parameters := by
  refine ⟨filterMap_map_none _ _ _ fun d => define_param t _ d, filterMap_map_none _ _ _ fun d => include_param t _ d,
    fun h1 h2 n hn => ?_⟩
  rw [params, hn, filterMap_map_some b.parameters (paramOpt (some n) t) (paramOf t n) id fun d hd => param_opt (h.names d (List.mem_append_right _ hd))
    (fun hx => h.blanks hx d hd) h1 h2, List.map_id]

theorem defs_right {cfg t b l I P} (h : Tidy cfg t b) (h2 : t ≠ .ghdl) (h3 : t ≠ .nvc) (hl : Reading t b.toplevel l [] I P) :
    Reading t b.toplevel (l ++ defs t b) (b.defines.map (seen t)) I P := by
  have := reading_append hl (reading_defs h h2 h3)
  simpa only [List.append_nil, List.nil_append] using this

theorem incs_right {cfg t b l D P} (h : Tidy cfg t b) (h2 : t ≠ .ghdl) (h3 : t ≠ .nvc) (hl : Reading t b.toplevel l D [] P) :
    Reading t b.toplevel (l ++ incs t b) D b.includes P := by
  have := reading_append hl (reading_incs h h2 h3)
  simpa only [List.append_nil, List.nil_append] using this

theorem params_right {cfg t b l D I} (h : Tidy cfg t b) (hl : Reading t b.toplevel l D I []) :
    Reading t b.toplevel (l ++ params t b) D I b.parameters := by
  have := reading_append hl (reading_params h)
  simpa only [List.append_nil, List.nil_append] using this

theorem still_of_noOption {t top a} (h : NoOption a) : Still t top a :=
  ⟨(noOption_read h t).1, (noOption_read h t).2.1, fun h1 h2 n _ => (noOption_read h t).2.2 h1 h2 n⟩

theorem quiet_own {cfg t b} (h : Tidy cfg t b) : Silent t b.toplevel (allArgs b) := fun a ha => by
  have := h.own a (by simp only [List.mem_append]; exact .inl (.inl ha))
  exact ⟨this.1, this.2.1, fun _ _ => this.2.2⟩

theorem quiet_for {cfg t b} (h : Tidy cfg t b) (g : Tag) : Silent t b.toplevel (argsFor b g) := fun a ha => by
  refine quiet_own h a ?_
  simp only [argsFor, List.mem_map, List.mem_filter] at ha
  obtain ⟨x, ⟨hx, _⟩, e⟩ := ha
  exact List.mem_map.2 ⟨x, hx, e⟩

theorem quiet_prefix {cfg t b} (h : Tidy cfg t b) : Silent t b.toplevel cfg.cmdPrefix := fun a ha => by
  have := h.own a (by simp [ha])
  exact ⟨this.1, this.2.1, fun _ _ => this.2.2⟩

theorem quiet_suffix {cfg t b} (h : Tidy cfg t b) : Silent t b.toplevel cfg.cmdSuffix := fun a ha => by
  have := h.own a (by simp [ha])
  exact ⟨this.1, this.2.1, fun _ _ => this.2.2⟩

theorem quiet_paths {cfg t b l} (h : Tidy cfg t b) (hl : ∀ s ∈ l, s ∈ b.sources ++ b.vhdlSources ++ b.verilogSources) :
    Silent t b.toplevel (paths l) := fun a ha => by
  obtain ⟨s, hs, rfl⟩ := List.mem_map.1 ha
  exact still_of_noOption (h.paths s (hl s hs))

theorem noOption_append {a : Text} (b : Text) (h : NoOption a) (hn : a ≠ []) : NoOption (a ++ b) := by
  cases a with
  | nil => exact absurd rfl hn
  | cons c a => exact fun x hx => h x hx

theorem noOption_tcl {v : Text} (h : NoOption v) : NoOption (asTclValue v) := by
  unfold asTclValue
  simp only [asTcl_body]
  cases v with
  | nil => intro c hc; simp at hc
  | cons x v =>
    have hx := h x rfl
    rw [List.flatMap_cons]
    intro c hc
    split at hc
    · simp at hc; omega
    · unfold tclChar at hc
      split at hc
      · simp at hc; omega
      · split at hc
        · simp at hc; omega
        · split at hc <;> simp at hc <;> omega

theorem noOption_slash {ts : Text × Text} (h : NoOption ts.1 ∧ ts.1 ≠ []) : NoOption (slash ts) := by
  unfold slash
  rw [List.append_assoc]
  exact noOption_append _ h.1 h.2

/-- Closes goals about arguments that say nothing. -/
macro "still" h:term : tactic => `(tactic| first
  | (with_reducible exact still_of_noOption (noOption_append _ ($h).buildDir ($h).buildDir'))
  | (with_reducible exact still_of_noOption ($h).buildDir)
  | (with_reducible exact still_of_noOption ($h).library)
  | (with_reducible exact still_of_noOption (noOption_append _ (noOption_append _ ($h).library ($h).library') (by simp)))
  | (with_reducible exact still_of_noOption (($h).libEntry _ _))
  | (with_reducible exact still_of_noOption (noOption_tcl ($h).library))
  | (with_reducible exact still_of_noOption (noOption_tcl (($h).libEntry _ _)))
  | (with_reducible exact still_of_noOption (noOption_append _ ($h).shareDir ($h).shareDir'))
  | (with_reducible exact still_of_noOption ($h).jobs)
  | (with_reducible exact still_of_noOption (($h).exe _ (by assumption)))
  | (with_reducible exact still_of_noOption (($h).toplevel _ (by assumption)))
  | (with_reducible exact still_of_noOption (noOption_slash (($h).timescale _ (by assumption))))
  | (refine ⟨?_, ?_, fun h1 h2 _ _ => ?_⟩ <;> first | exact absurd rfl h1 | exact absurd rfl h2 | (read; done)))

/-- The simulators that are given parameters when the design is built. -/
def AtBuild (t : Tool) : Bool :=
  match t with
  | .icarus | .verilator | .xcelium | .vcs | .dsim | .questaQis => true
  | _ => false

/-- A command that carries everything. -/
def Loaded (t : Tool) (b : BuildOpts) (cmd : Command) : Prop :=
  Reading t b.toplevel cmd (b.defines.map (seen t)) b.includes (if AtBuild t then b.parameters else [])

theorem unlessFresh_ok {b : BuildOpts} {out times srcs r cmds} (h : unlessFresh b out times srcs r = .ok cmds) :
    (r = .ok cmds) ∨ (cmds = [] ∧ ¬ (b.always = true ∨ out = none)) := by
  unfold unlessFresh at h
  split at h
  · exact absurd h (by simp)
  · rename_i o ho
    split at h
    · exact .inl h
    · rename_i hn
      refine .inr ⟨by injection h with h; exact h.symm, ?_⟩
      rintro (ha | hout)
      · simp [ha] at hn
      · subst hout
        simp only [outdated] at ho
        injection ho with ho
        subst ho
        simp at hn

theorem perSource_ok {f g : Text → Command} {ss cmds} (h : perSource f g ss = .ok cmds) :
    (∀ cmd ∈ cmds, ∃ s ∈ ss, cmd = f s.2 ∨ cmd = g s.2) ∧ ∀ p, (Tag.verilog, p) ∈ ss → g p ∈ cmds := by
  induction ss generalizing cmds with
  | nil =>
    simp only [perSource] at h
    injection h with h
    subst h
    exact ⟨fun _ h => absurd h (by simp), fun _ h => absurd h (by simp)⟩
  | cons s ss ih =>
    rw [perSource] at h
    cases hr : perSource f g ss with
    | error e => 
      rw [hr] at h
      split at h
      · simp [Except.map] at h
      · split at h <;> simp [Except.map] at h
    | ok l =>
      obtain ⟨i1, i2⟩ := ih hr
      rw [hr] at h
      split at h
      · rename_i ht
        injection h with h
        subst h
        refine ⟨fun cmd hc => ?_, fun p hp => ?_⟩
        · rcases List.mem_cons.1 hc with rfl | hc
          · exact ⟨s, List.mem_cons_self, .inl rfl⟩
          · obtain ⟨x, hx, e⟩ := i1 cmd hc
            exact ⟨x, List.mem_cons_of_mem _ hx, e⟩
        · rcases List.mem_cons.1 hp with e | hp
          · rw [← e] at ht; exact absurd ht (by simp)
          · exact List.mem_cons_of_mem _ (i2 p hp)
      · split at h
        · injection h with h
          subst h
          refine ⟨fun cmd hc => ?_, fun p hp => ?_⟩
          · rcases List.mem_cons.1 hc with rfl | hc
            · exact ⟨s, List.mem_cons_self, .inr rfl⟩
            · obtain ⟨x, hx, e⟩ := i1 cmd hc
              exact ⟨x, List.mem_cons_of_mem _ hx, e⟩
          · rcases List.mem_cons.1 hp with e | hp
            · rw [← e]; exact List.mem_cons_self
            · exact List.mem_cons_of_mem _ (i2 p hp)
        · exact absurd h (by simp)

/-- What is claimed of the commands of a build. -/
def Carries (t : Tool) (b : BuildOpts) (due : Prop) (cmds : List Command) : Prop :=
  (∀ cmd ∈ cmds, Reading t b.toplevel cmd [] [] [] ∨ Loaded t b cmd) ∧
  (due → ∀ p, VerilogSource b p → ∃ cmd ∈ cmds, Compiles t cmd p ∧ Loaded t b cmd)

theorem carries_nil {t b due} (h : ¬ due) : Carries t b due [] :=
  ⟨fun _ h => absurd h (by simp), fun hd => absurd hd h⟩

theorem carries_one {t b due cmd} (h : Loaded t b cmd) (hp : ∀ p, VerilogSource b p → Compiles t cmd p) : Carries t b due [cmd] :=
  ⟨fun c hc => by rw [List.mem_singleton.1 hc]; exact .inr h, fun _ p hv => ⟨cmd, List.mem_singleton.2 rfl, hp p hv, h⟩⟩

theorem carries_more {t b due l m} (h : Carries t b due l) (hm : ∀ cmd ∈ m, Reading t b.toplevel cmd [] [] []) :
    Carries t b due (m ++ l) ∧ Carries t b due (l ++ m) := by
  refine ⟨⟨fun c hc => ?_, fun hd p hv => ?_⟩, ⟨fun c hc => ?_, fun hd p hv => ?_⟩⟩
  · rcases List.mem_append.1 hc with hc | hc
    · exact .inl (hm c hc)
    · exact h.1 c hc
  · obtain ⟨c, hc, e⟩ := h.2 hd p hv
    exact ⟨c, List.mem_append_right _ hc, e⟩
  · rcases List.mem_append.1 hc with hc | hc
    · exact h.1 c hc
    · exact .inl (hm c hc)
  · obtain ⟨c, hc, e⟩ := h.2 hd p hv
    exact ⟨c, List.mem_append_left _ hc, e⟩

/-- Takes a command apart. -/
macro "loaded" h:term : tactic => `(tactic| (
  unfold Loaded
  simp only [AtBuild, if_true, Bool.false_eq_true, if_false]
  repeat' first
    | assumption
    | with_reducible exact quiet_own $h
    | with_reducible exact quiet_for $h _
    | with_reducible exact quiet_prefix $h
    | with_reducible exact quiet_suffix $h
    | ((with_reducible refine quiet_paths $h ?_); simp; done)
    | ((with_reducible refine quiet_paths $h ?_); simp; grind)
    | with_reducible refine defs_right $h (by decide) (by decide) ?_
    | with_reducible refine incs_right $h (by decide) (by decide) ?_
    | with_reducible refine params_right $h ?_
    | with_reducible refine reading_right ?_ ?_
    | with_reducible refine reading_quiet ?_
    | with_reducible refine quiet_ite ?_ ?_
    | with_reducible exact quiet_nil
    | with_reducible refine quiet_cons ?_ ?_
    | with_reducible refine quiet_append ?_ ?_
    | still $h
    | split))

/-- Takes a command without defines apart. -/
macro "mute" h:term : tactic => `(tactic| (
  refine reading_quiet ?_
  repeat' first
    | assumption
    | with_reducible exact quiet_own $h
    | with_reducible exact quiet_for $h _
    | with_reducible refine quiet_ite ?_ ?_
    | with_reducible exact quiet_nil
    | with_reducible refine quiet_cons ?_ ?_
    | with_reducible refine quiet_append ?_ ?_
    | still $h))

theorem icarus_carries {cfg b out times cmds} (h : Tidy cfg .icarus b) (hc : buildCmds cfg .icarus b out times = .ok cmds) :
    Carries .icarus b (b.always = true ∨ out = none) cmds := by
  simp only [buildCmds] at hc
  split at hc
  · exact absurd hc (by simp)
  · rename_i top ht
    split at hc
    · exact absurd hc (by simp)
    · rcases unlessFresh_ok hc with hc | ⟨rfl, hn⟩
      · injection hc with hc
        subst hc
        refine carries_one ?_ fun p hp => ⟨p, ?_, rfl⟩
        · loaded h
        · simp only [List.mem_append]
          exact .inl (.inr (List.mem_map.2 ⟨_, hp, rfl⟩))
      · exact carries_nil hn

theorem verilator_carries {cfg b out times cmds} (h : Tidy cfg .verilator b) (hc : buildCmds cfg .verilator b out times = .ok cmds) :
    Carries .verilator b (b.always = true ∨ out = none) cmds := by
  simp only [buildCmds] at hc
  split at hc
  · exact absurd hc (by simp)
  · rename_i exe he
    split at hc
    · exact absurd hc (by simp)
    · split at hc
      · exact absurd hc (by simp)
      · rename_i top ht
        injection hc with hc
        subst hc
        refine (carries_more (l := [_]) (m := [_]) (carries_one ?_ fun p hp => ⟨p, ?_, rfl⟩) fun c hc => ?_).2
        · loaded h
        · simp only [List.mem_append]
          exact .inr (List.mem_map.2 ⟨_, hp, rfl⟩)
        · rw [List.mem_singleton.1 hc]
          cases b.waves <;> mute h

theorem xcelium_carries {cfg b out times cmds} (h : Tidy cfg .xcelium b) (hc : buildCmds cfg .xcelium b out times = .ok cmds) :
    Carries .xcelium b (b.always = true ∨ out = none) cmds := by
  simp only [buildCmds] at hc
  split at hc
  · exact absurd hc (by simp)
  · split at hc
    · exact absurd hc (by simp)
    · rename_i top ht
      split at hc
      · exact absurd hc (by simp)
      · injection hc with hc
        subst hc
        refine carries_one ?_ fun p hp => ⟨p, ?_, rfl⟩
        · loaded h
        · simp only [List.mem_append]
          refine .inr (List.mem_map.2 ⟨(.verilog, p), ?_, rfl⟩)
          simp only [VerilogSource, List.mem_append] at hp ⊢
          exact hp.imp_left .inl

theorem vcs_carries {cfg b out times cmds} (h : Tidy cfg .vcs b) (hc : buildCmds cfg .vcs b out times = .ok cmds) :
    Carries .vcs b (b.always = true ∨ out = none) cmds := by
  simp only [buildCmds] at hc
  split at hc
  · exact absurd hc (by simp)
  · rcases unlessFresh_ok hc with hc | ⟨rfl, hn⟩
    · split at hc
      · exact absurd hc (by simp)
      · rename_i top ht
        injection hc with hc
        subst hc
        refine carries_one ?_ fun p hp => ⟨p, ?_, rfl⟩
        · loaded h
        · simp only [List.mem_append]
          refine .inl (.inr (List.mem_map.2 ⟨(.verilog, p), ?_, rfl⟩))
          simp only [VerilogSource, List.mem_append] at hp ⊢
          exact hp.imp_left .inl
    · exact carries_nil hn

theorem dsim_carries {cfg b out times cmds} (h : Tidy cfg .dsim b) (hc : buildCmds cfg .dsim b out times = .ok cmds) :
    Carries .dsim b (b.always = true ∨ out = none) cmds := by
  simp only [buildCmds] at hc
  split at hc
  · exact absurd hc (by simp)
  · rcases unlessFresh_ok hc with hc | ⟨rfl, hn⟩
    · injection hc with hc
      subst hc
      refine carries_one ?_ fun p hp => ⟨p, ?_, rfl⟩
      · loaded h
      · simp only [List.mem_append]
        exact .inl (.inr (List.mem_map.2 ⟨_, hp, rfl⟩))
    · exact carries_nil hn

theorem questaQis_carries {cfg b out times cmds} (h : Tidy cfg .questaQis b) (hc : buildCmds cfg .questaQis b out times = .ok cmds) :
    Carries .questaQis b (b.always = true ∨ out = none) cmds := by
  simp only [buildCmds] at hc
  injection hc with hc
  subst hc
  refine carries_one ?_ fun p hp => ⟨p, ?_, rfl⟩
  · loaded h
  · have : p ∈ paths (b.sources ++ b.vhdlSources ++ b.verilogSources) := by
      refine List.mem_map.2 ⟨(.verilog, p), ?_, rfl⟩
      simp only [VerilogSource, List.mem_append] at hp ⊢
      exact hp.imp_left .inl
    simp only [List.mem_append, this, or_true, true_or]

theorem questa_carries {cfg b out times cmds} (h : Tidy cfg .questa b) (hc : buildCmds cfg .questa b out times = .ok cmds) :
    Carries .questa b (b.always = true ∨ out = none) cmds := by
  simp only [buildCmds] at hc
  generalize hr : perSource _ _ _ = r at hc
  cases r with
  | error e => exact absurd hc (by simp [Except.map])
  | ok l =>
    injection hc with hc
    subst hc
    obtain ⟨h1, h2⟩ := perSource_ok hr
    have hv : ∀ s ∈ b.sources ++ b.vhdlSources ++ b.verilogSources, Loaded .questa b
        ([lit "vlog"] ++ (if b.verbose then [] else [lit "-quiet"]) ++ (if b.always then [] else [lit "-incr"]) ++
          [lit "-work", b.library, lit "-sv"] ++ defs .questa b ++ incs .questa b ++ argsFor b .verilog ++ [s.2]) := fun s hs => by
      have hp : Still .questa b.toplevel s.2 := still_of_noOption (h.paths s hs)
      loaded h
    have hin : ∀ p, VerilogSource b p → (Tag.verilog, p) ∈ b.sources ++ b.vhdlSources ++ b.verilogSources := fun p hp => by
      simp only [VerilogSource, List.mem_append] at hp ⊢
      exact hp.imp_left .inl
    refine (carries_more (l := l) (m := [_]) ⟨fun c hc => ?_, fun _ p hp => ⟨_, h2 p (hin p hp), ⟨p, by simp, rfl⟩, hv _ (hin p hp)⟩⟩
      fun c hc => ?_).1
    · obtain ⟨s, hs, rfl | rfl⟩ := h1 c hc
      · left
        have hp : Still .questa b.toplevel s.2 := still_of_noOption (h.paths s hs)
        mute h
      · exact .inr (hv s hs)
    · rw [List.mem_singleton.1 hc]
      mute h

theorem aldec_carries {cfg t b out times cmds} (ht : t = .riviera ∨ t = .activeHdl) (h : Tidy cfg t b)
    (hc : buildCmds cfg t b out times = .ok cmds) : Carries t b (b.always = true ∨ out = none) cmds := by
  have hcmd : ∀ s ∈ b.sources ++ b.vhdlSources ++ b.verilogSources,
      Loaded t b ([lit "alog", lit "-work", asTclValue b.library, lit "-pli", asTclValue (cfg.libEntry "vpi" "riviera"), lit "-sv"] ++
        defs t b ++ incs t b ++ argsFor b .verilog ++ [asTclValue s.2]) ∧
      Reading t b.toplevel ([lit "acom", lit "-work", asTclValue b.library] ++ argsFor b .vhdl ++ [asTclValue s.2]) [] [] [] := fun s hs => by
    have hp : Still t b.toplevel (asTclValue s.2) := still_of_noOption (noOption_tcl (h.paths s hs))
    rcases ht with rfl | rfl
    · exact ⟨by loaded h, by mute h⟩
    · exact ⟨by loaded h, by mute h⟩
  have hfix : ∀ x, x = lit "onerror {\n quit -code 1 \n}" ∨ x = lit "exit" → Reading t b.toplevel [x] [] [] [] := fun x hx => by
    refine reading_quiet (quiet_cons (still_of_noOption ?_) quiet_nil)
    rcases hx with rfl | rfl <;> simp [NoOption, lit, ofStr]
  have hlib : Reading t b.toplevel [lit "alib", asTclValue b.library] [] [] [] := by
    rcases ht with rfl | rfl <;> mute h
  have hin : ∀ p, VerilogSource b p → (Tag.verilog, p) ∈ b.sources ++ b.vhdlSources ++ b.verilogSources := fun p hp => by
    simp only [VerilogSource, List.mem_append] at hp ⊢
    exact hp.imp_left .inl
  have hfile : ∀ p, VerilogSource b p → fileOf t (asTclValue p) = some p := fun p hp => by
    have hp' : p ∈ b.includes ++ b.verilogSources.map (·.2) ++ b.sources.map (·.2) := by
      simp only [VerilogSource, List.mem_append] at hp
      simp only [List.mem_append, List.mem_map]
      rcases hp with hp | hp
      · exact .inr ⟨_, hp, rfl⟩
      · exact .inl (.inr ⟨_, hp, rfl⟩)
    have := h.tcl ht p hp'
    rcases ht with rfl | rfl <;> exact tclWord_value p this.1 this.2
  have hc' : ∃ lines, cmds = [lit "onerror {\n quit -code 1 \n}"] :: lines ++ [[lit "exit"]] ∧
      Carries t b (b.always = true ∨ out = none) lines := by
    have key : ∀ r : PyM (List Command), r.map (fun lines => [lit "onerror {\n quit -code 1 \n}"] :: lines ++ [[lit "exit"]]) = .ok cmds →
        (∀ lines, r = .ok lines → Carries t b (b.always = true ∨ out = none) lines) →
        ∃ lines, cmds = [lit "onerror {\n quit -code 1 \n}"] :: lines ++ [[lit "exit"]] ∧
          Carries t b (b.always = true ∨ out = none) lines := by
      intro r hr hk
      cases r with
      | error e => exact absurd hr (by simp [Except.map])
      | ok l =>
        injection hr with hr
        exact ⟨l, hr.symm, hk l rfl⟩
    rcases ht with rfl | rfl <;>
    · simp only [buildCmds] at hc
      refine key _ hc fun lines hl => ?_
      rcases unlessFresh_ok hl with hl | ⟨rfl, hn⟩
      · generalize hr : perSource _ _ _ = r at hl
        cases r with
        | error e => exact absurd hl (by simp [Except.map])
        | ok l =>
          injection hl with hl
          subst hl
          obtain ⟨h1, h2⟩ := perSource_ok hr
          refine (carries_more (l := l) (m := [_]) ⟨fun c hc => ?_, fun _ p hp => ⟨_, h2 p (hin p hp), ⟨asTclValue p, by simp, hfile p hp⟩,
            (hcmd _ (hin p hp)).1⟩⟩ fun c hc => ?_).1
          · obtain ⟨s, hs, rfl | rfl⟩ := h1 c hc
            · exact .inl (hcmd s hs).2
            · exact .inr (hcmd s hs).1
          · rw [List.mem_singleton.1 hc]
            exact hlib
      · exact carries_nil hn
  obtain ⟨lines, rfl, hl⟩ := hc'
  have a1 := (carries_more hl (m := [[lit "onerror {\n quit -code 1 \n}"]]) fun c hc => by
    rw [List.mem_singleton.1 hc]; exact hfix _ (.inl rfl)).1
  exact (carries_more a1 (m := [[lit "exit"]]) fun c hc => by
    rw [List.mem_singleton.1 hc]; exact hfix _ (.inr rfl)).2

theorem build_carries {cfg t b out times cmds} (hg : t ≠ .ghdl) (hn : t ≠ .nvc) (h : Tidy cfg t b)
    (hc : buildCmds cfg t b out times = .ok cmds) : Carries t b (b.always = true ∨ out = none) cmds := by
  cases t with
  | icarus => exact icarus_carries h hc
  | questa => exact questa_carries h hc
  | questaQis => exact questaQis_carries h hc
  | ghdl => exact absurd rfl hg
  | nvc => exact absurd rfl hn
  | riviera => exact aldec_carries (.inl rfl) h hc
  | activeHdl => exact aldec_carries (.inr rfl) h hc
  | verilator => exact verilator_carries h hc
  | xcelium => exact xcelium_carries h hc
  | vcs => exact vcs_carries h hc
  | dsim => exact dsim_carries h hc

/-! ### The claims -/

/-- Every Verilog source is compiled with all defines and include directories, as they were given. -/
def C131_build_full : Prop :=
  ∀ (cfg : Cfg) (t : Tool) (b : BuildOpts) (out : Option Nat) (times : Times) (cmds : List Command),
    Tidy cfg t b → (b.always = true ∨ out = none) → buildCmds cfg t b out times = .ok cmds →
    ∀ p, VerilogSource b p → ∃ cmd ∈ cmds, Compiles t cmd p ∧ cmd.filterMap (defineOf t) = b.defines ∧
      cmd.filterMap (includeOf t) = b.includes

/-- `C131_build_full` holds for all simulators for Verilog except Xcelium; and whenever a command is run, it has either all
defines and include directories or none of them. Missing: Xcelium, which is given every define as a string literal. -/
theorem C131_build_partial (cfg : Cfg) (t : Tool) (b : BuildOpts) (out : Option Nat) (times : Times) (cmds : List Command)
    (hx : t ≠ .xcelium) (hg : t ≠ .ghdl) (hn : t ≠ .nvc) (h : Tidy cfg t b) (hc : buildCmds cfg t b out times = .ok cmds) :
    (∀ cmd ∈ cmds, (cmd.filterMap (defineOf t) = [] ∧ cmd.filterMap (includeOf t) = []) ∨
      (cmd.filterMap (defineOf t) = b.defines ∧ cmd.filterMap (includeOf t) = b.includes)) ∧
    ((b.always = true ∨ out = none) → ∀ p, VerilogSource b p → ∃ cmd ∈ cmds, Compiles t cmd p ∧
      cmd.filterMap (defineOf t) = b.defines ∧ cmd.filterMap (includeOf t) = b.includes) := by
  have hb := build_carries hg hn h hc
  unfold Carries Loaded at hb
  rw [seen_map hx] at hb
  refine ⟨fun cmd hm => ?_, fun hd p hp => ?_⟩
  · rcases hb.1 cmd hm with hr | hr
    · exact .inl ⟨hr.defines, hr.includes⟩
    · exact .inr ⟨hr.defines, hr.includes⟩
  · obtain ⟨cmd, hm, hf, hr⟩ := hb.2 hd p hp
    exact ⟨cmd, hm, hf, hr.defines, hr.includes⟩

/-- Xcelium: all include directories, and all defines as string literals. -/
theorem C131_xcelium (cfg : Cfg) (b : BuildOpts) (out : Option Nat) (times : Times) (cmds : List Command)
    (h : Tidy cfg .xcelium b) (hc : buildCmds cfg .xcelium b out times = .ok cmds)
    (hd : b.always = true ∨ out = none) (p : Text) (hp : VerilogSource b p) :
    ∃ cmd ∈ cmds, Compiles .xcelium cmd p ∧ cmd.filterMap (includeOf .xcelium) = b.includes ∧
      ∃ ds, cmd.filterMap (defineOf .xcelium) = ds ∧ ds.map (·.1) = b.defines.map (·.1) ∧
        ds.map (fun d => svString d.2) = b.defines.map (fun d => some d.2) := by
  obtain ⟨cmd, hm, hf, hr⟩ := (build_carries (by decide) (by decide) h hc).2 hd p hp
  refine ⟨cmd, hm, hf, hr.includes, _, hr.defines, ?_, ?_⟩
  · simp [seen, List.map_map, Function.comp_def]
  · simp [seen, List.map_map, Function.comp_def, svString_escape]

/-- The simulators that are given parameters when the design is built: every Verilog source is compiled with all parameters. -/
theorem C131_parameters (cfg : Cfg) (t : Tool) (b : BuildOpts) (out : Option Nat) (times : Times) (cmds : List Command) (top : Text)
    (ht : t = .icarus ∨ t = .verilator ∨ t = .xcelium ∨ t = .vcs ∨ t = .dsim ∨ t = .questaQis)
    (htop : b.toplevel = some top) (h : Tidy cfg t b) (hc : buildCmds cfg t b out times = .ok cmds) :
    (∀ cmd ∈ cmds, cmd.filterMap (paramOf t top) = [] ∨ cmd.filterMap (paramOf t top) = b.parameters) ∧
    ((b.always = true ∨ out = none) → ∀ p, VerilogSource b p →
      ∃ cmd ∈ cmds, Compiles t cmd p ∧ cmd.filterMap (paramOf t top) = b.parameters) := by
  have hne : t ≠ .ghdl ∧ t ≠ .nvc ∧ t ≠ .riviera ∧ t ≠ .activeHdl ∧ AtBuild t = true := by
    rcases ht with rfl | rfl | rfl | rfl | rfl | rfl <;> decide
  obtain ⟨h1, h2, h3, h4, h5⟩ := hne
  have hb := build_carries h1 h2 h hc
  unfold Carries Loaded at hb
  rw [h5, if_pos rfl] at hb
  refine ⟨fun cmd hm => ?_, fun hd p hp => ?_⟩
  · rcases hb.1 cmd hm with hr | hr
    · exact .inl (hr.params h3 h4 top htop)
    · exact .inr (hr.params h3 h4 top htop)
  · obtain ⟨cmd, hm, hf, hr⟩ := hb.2 hd p hp
    exact ⟨cmd, hm, hf, hr.params h3 h4 top htop⟩

/-! ### Examples -/

def cfgEx : Cfg where
  libEntry i s := lit "/usr/lib/libcocotb" ++ lit i ++ lit "_" ++ lit s ++ lit ".so"
  libPath _ _ := lit "/usr/lib/x.so"
  libExists _ := true
  libsDir := lit "/usr/lib"
  shareDir := lit "/usr/share"
  verilator := some (lit "/usr/bin/verilator")
  jobs := lit "4"
  mcode := true
  preserveCase := false
  cmdPrefix := []
  cmdSuffix := []

def buildEx : BuildOpts where
  library := lit "top"
  sources := [(.verilog, lit "/src/a.sv")]
  vhdlSources := []
  verilogSources := [(.verilog, lit "/src/b.v")]
  args := [(none, lit "-Wall")]
  includes := [lit "/src/include"]
  defines := [(lit "WIDTH", lit "8"), (lit "EXPR", lit "a=b")]
  parameters := [(lit "DEPTH", lit "4")]
  toplevel := some (lit "dut")
  always := false
  verbose := false
  waves := false
  timescale := some (lit "1ns", lit "1ps")
  buildDir := lit "/work/sim_build"

theorem tidyEx (t : Tool) : Tidy cfgEx t buildEx where
  own a ha := by
    have : a = lit "-Wall" := by simpa [buildEx, cfgEx] using ha
    subst this
    refine ⟨?_, ?_, fun n hn => ?_⟩
    · cases t <;> read
    · cases t <;> read
    · have : n = lit "dut" := by simpa [buildEx, eq_comm] using hn
      subst this
      cases t <;> decide +kernel
  libEntry i s := by
    refine noOption_append _ (noOption_append _ (noOption_append _ (noOption_append _ ?_ ?_) ?_) ?_) ?_ <;>
      simp [NoOption, lit, ofStr]
  shareDir := by simp [NoOption, cfgEx, lit, ofStr]
  shareDir' := by simp [cfgEx, lit, ofStr]
  exe e he := by
    have : e = lit "/usr/bin/verilator" := by simpa [cfgEx, eq_comm] using he
    subst this
    simp [NoOption, lit, ofStr]
  jobs := by simp [NoOption, cfgEx, lit, ofStr]
  paths s hs := by
    have : s = (.verilog, lit "/src/a.sv") ∨ s = (.verilog, lit "/src/b.v") := by simpa [buildEx] using hs
    rcases this with rfl | rfl <;> simp [NoOption, lit, ofStr]
  buildDir := by simp [NoOption, buildEx, lit, ofStr]
  buildDir' := by simp [buildEx, lit, ofStr]
  library := by simp [NoOption, buildEx, lit, ofStr]
  library' := by simp [buildEx, lit, ofStr]
  toplevel n hn := by
    have : n = lit "dut" := by simpa [buildEx, eq_comm] using hn
    subst this
    simp [NoOption, lit, ofStr]
  names := by decide +kernel
  timescale ts hts := by
    have : ts = (lit "1ns", lit "1ps") := by simpa [buildEx, eq_comm] using hts
    subst this
    simp [NoOption, lit, ofStr]
  blanks _ := by decide +kernel
  tcl _ := by decide +kernel

/-- Xcelium is given `WIDTH="8"` for `WIDTH=8`. -/
theorem C131_build_counterexample : ¬ C131_build_full := by
  intro hf
  obtain ⟨cmd, hm, _, hd, _⟩ := hf cfgEx .xcelium buildEx none (fun _ => none) _ (tidyEx _) (.inr rfl) rfl (lit "/src/a.sv")
    (List.mem_cons_self)
  rw [List.mem_singleton.1 hm] at hd
  revert hd
  decide +kernel

/-- Defines that are not refused are used. -/
def C131_accepted_full : Prop :=
  ∀ (cfg : Cfg) (t : Tool) (b : BuildOpts) (out : Option Nat) (times : Times) (cmds : List Command),
    (b.always = true ∨ out = none) → buildCmds cfg t b out times = .ok cmds → ∀ d ∈ b.defines, ∃ cmd ∈ cmds, ∃ a ∈ cmd, d.1 <:+: a

/-- GHDL and NVC: the defines are silently dropped. -/
theorem C131_accepted_counterexample : ¬ C131_accepted_full := by
  intro hf
  obtain ⟨cmd, hm, a, ha, hi⟩ := hf cfgEx .nvc { buildEx with sources := [(.vhdl, lit "/src/a.vhd")] } none (fun _ => none) _ (.inr rfl) rfl
    (lit "WIDTH", lit "8") List.mem_cons_self
  rw [List.mem_singleton.1 hm] at ha
  revert a
  decide +kernel

example : ∃ cmds, buildCmds cfgEx .icarus buildEx none (fun _ => none) = .ok cmds ∧ ∃ cmd ∈ cmds, cmd = [lit "iverilog", lit "-o",
    lit "/work/sim_build/sim.vvp", lit "-s", lit "dut", lit "-g2012", lit "-DWIDTH=8", lit "-DEXPR=a=b", lit "-I/src/include",
    lit "-Pdut.DEPTH=4", lit "-Wall", lit "-f", lit "/work/sim_build/cmds.f", lit "/src/a.sv", lit "/src/b.v"] :=
  ⟨_, rfl, _, List.mem_cons_self, by decide +kernel⟩

example : (∃ cmds, buildCmds cfgEx .riviera buildEx none (fun _ => none) = .ok cmds) ∧ VerilogSource buildEx (lit "/src/b.v") :=
  ⟨⟨_, rfl⟩, by unfold VerilogSource; decide +kernel⟩

end Verif
