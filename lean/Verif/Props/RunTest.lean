import Verif.Props.RunCmd
/-!
# C132: what is given to `test` reaches the simulation
-/
namespace Verif

open RunCmd Runner Spec

theorem plus_noOption {t : Tool} {a : Text} (ht : t ≠ .riviera ∧ t ≠ .activeHdl) (h : NoOption a) : plusOf t a = none := by
  have e : fileOf t a = some a := by cases t <;> first | rfl | exact absurd rfl ht.1 | exact absurd rfl ht.2
  cases a with
  | nil => simp [plusOf, e]
  | cons c a => simp [plusOf, e, Option.filter, (h c rfl).2.1]

theorem plus_word {t : Tool} {a : Text} (ht : t ≠ .riviera ∧ t ≠ .activeHdl) : plusOf t a = if Plus a then some a else none := by
  have e : fileOf t a = some a := by cases t <;> first | rfl | exact absurd rfl ht.1 | exact absurd rfl ht.2
  simp [plusOf, e, Option.filter, Plus]

theorem plus_list {t : Tool} (ht : t ≠ .riviera ∧ t ≠ .activeHdl) (l : List Text) : l.filterMap (plusOf t) = l.filter Plus := by
  induction l with
  | nil => rfl
  | cons a l ih =>
    rw [List.filterMap_cons, plus_word ht, List.filter_cons, ih]
    cases Plus a <;> rfl

theorem plus_none {t : Tool} (ht : t ≠ .riviera ∧ t ≠ .activeHdl) {l : List Text} (h : ∀ a ∈ l, Plus a = false) :
    l.filterMap (plusOf t) = [] := by
  rw [plus_list ht]
  exact List.filter_eq_nil_iff.2 fun a ha => by simp [h a ha]

theorem tcl_plus {t : Tool} (ht : t = .riviera ∨ t = .activeHdl) {a : Text} (h : TclSafe a) :
    plusOf t (asTclValue a) = if Plus a then some a else none := by
  have e : fileOf t (asTclValue a) = some a := by rcases ht with rfl | rfl <;> exact tclWord_value a h.1 h.2
  simp [plusOf, e, Option.filter, Plus]

theorem tcl_plus_list {t : Tool} (ht : t = .riviera ∨ t = .activeHdl) {l : List Text} (h : ∀ a ∈ l, TclSafe a) :
    (l.map asTclValue).filterMap (plusOf t) = l.filter Plus := by
  induction l with
  | nil => rfl
  | cons a l ih =>
    rw [List.map_cons, List.filterMap_cons, tcl_plus ht (h a List.mem_cons_self), List.filter_cons,
      ih fun a ha => h a (List.mem_cons_of_mem _ ha)]
    cases Plus a <;> rfl

theorem plus_params {t : Tool} (ht : t = .questa ∨ t = .ghdl ∨ t = .nvc) (ps : List (Text × Text)) :
    (ps.map (paramOpt none t)).filterMap (plusOf t) = [] := by
  refine filterMap_map_none _ _ _ fun d => ?_
  rcases ht with rfl | rfl | rfl <;> simp [plusOf, fileOf, paramOpt, lit, ofStr, Option.filter]

theorem plus_false {a : Text} (h : NoOption a) : Plus a = false := by
  cases a with
  | nil => rfl
  | cons c a => simp [Plus, (h c rfl).2.1]

theorem plus_cons (c : Nat) (r : Text) : Plus (c :: r) = decide (c = 43) := by simp [Plus]
theorem plus_nil : Plus [] = false := rfl

/-- All plus-arguments that are given to `test`, in `test_args` and `plusargs`, reach the simulation, in their order, and no
others, except cocotb's own. -/
theorem C132_plusargs (cfg : Cfg) (t : Tool) (last : Option BuildOpts) (ps : List (Text × Text)) (dir : Text) (o : TestOpts)
    (cmds : List Command) (h : TidyTest cfg t ((last.map allArgs).getD []) ps dir o) (hc : testCmds cfg t last ps dir o = .ok cmds) :
    ∃ cmd ∈ cmds, cmd.filterMap (plusOf t) = ownPlus t ++ o.testArgs.filter Plus ++ o.plusargs.filter Plus := by
  have nil : ∀ l : List Text, (∀ a ∈ l, Plus a = false) → l.filter Plus = [] := fun l hl =>
    List.filter_eq_nil_iff.2 fun a ha => by simp [hl a ha]
  have f1 : cfg.cmdPrefix.filter Plus = [] := nil _ fun a ha => h.noPlus a (by simp [ha])
  have f2 : cfg.cmdSuffix.filter Plus = [] := nil _ fun a ha => h.noPlus a (by simp [ha])
  have f3 : ∀ l, o.preCmd = some l → l.filter Plus = [] := fun l hl => nil _ fun a ha => h.noPlus a (by simp [ha, hl])
  have f4 : ∀ i s, Plus (cfg.libEntry i s) = false := fun i s => plus_false (h.libEntry i s)
  have f5 : ∀ x, Plus (dir ++ x) = false := fun x => plus_false (noOption_append x h.buildDir h.buildDir')
  have f6 : ∀ x, Plus (o.library ++ x) = false := fun x => plus_false (noOption_append x h.library h.library')
  have f7 : Plus o.toplevel = false := plus_false h.toplevel
  have f8 : ∀ t : Tool, t = .questa ∨ t = .ghdl ∨ t = .nvc → (ps.map (paramOpt none t)).filter Plus = [] := fun t ht => nil _ fun a ha => by
    obtain ⟨d, _, rfl⟩ := List.mem_map.1 ha
    rcases ht with rfl | rfl | rfl <;> simp [paramOpt, lit, ofStr, plus_cons]
  have f9 : o.elabArgs.filter Plus = [] := nil _ fun a ha => h.noPlus a (by simp [ha])
  have f10 : Plus dir = false := plus_false h.buildDir
  have f11 : ∀ ts, o.timescale = some ts → Plus ts.2 = false := fun ts hts => plus_false (h.timescale ts hts)
  have asim : ∀ t : Tool, t = .riviera ∨ t = .activeHdl → TidyTest cfg t ((last.map allArgs).getD []) ps dir o →
      ([lit "asim", lit "+access", lit "+w_nets", lit "-interceptcoutput"] ++
        (if o.lang = "vhdl" then [lit "-loadvhpi", asTclValue (cfg.libEntry "vhpi" "riviera")]
          else [lit "-pli", asTclValue (cfg.libEntry "vpi" "riviera")]) ++
        (o.testArgs ++ ps.map (paramOpt none t)).map asTclValue ++ [asTclValue (o.library ++ [46] ++ o.toplevel)] ++
        o.plusargs.map asTclValue).filterMap (plusOf t) = ownPlus t ++ o.testArgs.filter Plus ++ o.plusargs.filter Plus := by
    intro t ht h
    obtain ⟨t1, t2⟩ := h.tcl ht
    have g1 : plusOf t (lit "asim") = none ∧ plusOf t (lit "+access") = some (lit "+access") ∧
        plusOf t (lit "+w_nets") = some (lit "+w_nets") ∧ plusOf t (lit "-interceptcoutput") = none ∧
        plusOf t (lit "-loadvhpi") = none ∧ plusOf t (lit "-pli") = none ∧ ownPlus t = [lit "+access", lit "+w_nets"] := by
      rcases ht with rfl | rfl <;> decide +kernel
    obtain ⟨g1, g2, g3, g4, g5, g6, g7⟩ := g1
    have g8 : ∀ i, i = "vpi" ∨ i = "vhpi" → plusOf t (asTclValue (cfg.libEntry i "riviera")) = none := fun i hi => by
      rw [tcl_plus ht (t2 i hi), f4]; rfl
    have g9 : plusOf t (asTclValue (o.library ++ [46] ++ o.toplevel)) = none := by
      rw [tcl_plus ht (t1 _ (by simp)), List.append_assoc, f6]; rfl
    have g10 := tcl_plus_list ht (l := o.testArgs) fun a ha => t1 a (by simp [ha])
    have g11 := tcl_plus_list ht (l := o.plusargs) fun a ha => t1 a (by simp [ha])
    have g12 : ((ps.map (paramOpt none t)).map asTclValue).filterMap (plusOf t) = [] := by
      rw [List.map_map]
      refine List.filterMap_eq_nil_iff.2 fun a ha => ?_
      obtain ⟨d, hd, rfl⟩ := List.mem_map.1 ha
      have e : paramOpt none t d = lit "-g" ++ nameEq d := by rcases ht with rfl | rfl <;> rfl
      have hs : TclSafe (d.1 ++ [61] ++ d.2) := t1 _ (by simp; exact .inr (.inr (.inr ⟨d.1, d.2, hd, rfl⟩)))
      have hs' : TclSafe (lit "-g" ++ nameEq d) := by
        refine ⟨by simp [lit, ofStr], fun c hc => ?_⟩
        rcases List.mem_append.1 hc with hc | hc
        · simp [lit, ofStr] at hc
          omega
        · exact hs.2 c hc
      simp only [Function.comp_apply, e]
      rw [tcl_plus ht hs']
      simp [lit, ofStr, plus_cons]
    simp only [List.map_append, List.filterMap_append, List.filterMap_cons, List.filterMap_nil, g1, g2, g3, g4, g9, g10, g11, g12, g7]
    split <;> simp [g5, g6, g8]
  cases t with
  | icarus =>
    simp only [testCmds] at hc
    split at hc
    · exact absurd hc (by simp)
    · injection hc with hc
      subst hc
      refine ⟨_, List.mem_singleton.2 rfl, ?_⟩
      rw [plus_list (by decide)]
      cases o.waves <;> cases o.gui <;>
        simp [List.filter_cons, f1, f2, f4, f5, lit, ofStr, plus_cons, plus_nil, ownPlus]
  | questa =>
    simp only [testCmds] at hc
    split at hc
    · exact absurd hc (by simp)
    · split at hc
      · exact absurd hc (by simp)
      · injection hc with hc
        subst hc
        refine ⟨_, List.mem_singleton.2 rfl, ?_⟩
        rw [plus_list (by decide)]
        have f12 : ∀ i, (questaLib cfg false i).filter Plus = [] := fun i => by
          unfold questaLib
          split
          · simp [List.filter_cons, lit, ofStr, plus_cons]
          · split <;> simp [List.filter_cons, lit, ofStr, plus_cons, f4]
        cases hp : o.preCmd with
        | none =>
          cases o.waves <;> cases o.gui <;> cases o.verbose <;>
            simp [List.filter_cons, f1, f2, f6, f8, f12, lit, ofStr, plus_cons, plus_nil, ownPlus]
        | some l =>
          cases o.waves <;> cases o.gui <;> cases o.verbose <;>
            simp [List.filter_cons, f1, f2, f6, f8, f12, f3 l hp, lit, ofStr, plus_cons, plus_nil, ownPlus]
  | questaQis =>
    simp only [testCmds] at hc
    split at hc
    · exact absurd hc (by simp)
    · split at hc
      · exact absurd hc (by simp)
      · injection hc with hc
        subst hc
        refine ⟨_, List.mem_singleton.2 rfl, ?_⟩
        rw [plus_list (by decide)]
        have f12 : ∀ i, (questaLib cfg true i).filter Plus = [] := fun i => by
          unfold questaLib
          split
          · simp [List.filter_cons, lit, ofStr, plus_cons]
          · split <;> simp [List.filter_cons, lit, ofStr, plus_cons, f4]
        simp only [List.filter_append, f1, f2, f12]
        cases hts : o.timescale <;> cases hp : o.preCmd <;> by_cases hl : o.lang = "vhdl" <;>
        cases o.waves <;> cases o.gui <;> cases o.verbose <;>
          (rw [hp] at f3; rw [hts] at f11
           simp [List.filter_cons, f6, f5, lit, ofStr, plus_cons, plus_nil, ownPlus, hl, f3, f11])
  | ghdl =>
    simp only [testCmds] at hc
    split at hc
    · exact absurd hc (by simp)
    · split at hc
      · exact absurd hc (by simp)
      · rename_i r hr
        injection hc with hc
        subst hc
        refine ⟨_, List.mem_singleton.2 rfl, ?_⟩
        rw [plus_list (by decide)]
        have f12 : r.filter Plus = [] := by
          split at hr
          · split at hr
            · split at hr
              · injection hr with hr
                subst hr
                simp [List.filter_cons, lit, ofStr, plus_cons]
              · exact absurd hr (by simp)
            · injection hr with hr
              subst hr
              rfl
          · injection hr with hr
            subst hr
            rfl
        simp only [List.filter_append, f1, f2, f12, f8 _ (.inr (.inl rfl)), wavesFile]
        cases o.waves <;> cases o.gui <;>
          simp [List.filter_cons, f7, lit, ofStr, plus_cons, plus_nil, ownPlus]
  | nvc =>
    simp only [testCmds] at hc
    split at hc
    · exact absurd hc (by simp)
    · rename_i b
      injection hc with hc
      subst hc
      refine ⟨_, List.mem_singleton.2 rfl, ?_⟩
      rw [plus_list (by decide)]
      have f12 : (allArgs b).filter Plus = [] := nil _ fun a ha => h.noPlus a (by simp [ha])
      simp only [List.filter_append, f1, f2, f12, f9, f8 _ (.inr (.inr rfl)), wavesFile]
      cases o.waves <;> cases o.gui <;>
        simp [List.filter_cons, f7, f10, lit, ofStr, plus_cons, plus_nil, ownPlus]
  | verilator =>
    simp only [testCmds] at hc
    split at hc
    · exact absurd hc (by simp)
    · injection hc with hc
      subst hc
      refine ⟨_, List.mem_singleton.2 rfl, ?_⟩
      rw [plus_list (by decide)]
      cases o.waves <;> cases o.gui <;>
        simp [List.filter_cons, f1, f2, f5, lit, ofStr, plus_cons, plus_nil, ownPlus]
  | vcs =>
    simp only [testCmds] at hc
    split at hc
    · exact absurd hc (by simp)
    · injection hc with hc
      subst hc
      refine ⟨_, List.mem_singleton.2 rfl, ?_⟩
      rw [plus_list (by decide)]
      cases o.verbose <;>
        simp [List.filter_cons, f1, f2, f5, lit, ofStr, plus_cons, plus_nil, ownPlus]
  | dsim =>
    simp only [testCmds] at hc
    split at hc
    · exact absurd hc (by simp)
    · injection hc with hc
      subst hc
      refine ⟨_, List.mem_singleton.2 rfl, ?_⟩
      rw [plus_list (by decide)]
      cases o.timescale <;> cases o.waves <;> cases o.gui <;>
        simp [List.filter_cons, f4, f10, lit, ofStr, plus_cons, plus_nil, ownPlus]
  | xcelium =>
    simp only [testCmds] at hc
    split at hc
    · exact absurd hc (by simp)
    · split at hc
      · exact absurd hc (by simp)
      · split at hc
        · exact absurd hc (by simp)
        · injection hc with hc
          subst hc
          refine ⟨_, List.mem_cons_of_mem _ (List.mem_singleton.2 rfl), ?_⟩
          rw [plus_list (by decide)]
          rename_i b
          cases hv : (b.sources ++ b.vhdlSources ++ b.verilogSources).any (fun s => s.1 = .vhdl) <;>
          cases o.waves <;> cases o.gui <;> cases o.verbose <;>
            simp [List.filter_cons, f1, f2, f4, f5, lit, ofStr, plus_cons, plus_nil, ownPlus]
  | riviera =>
    simp only [testCmds, if_true] at hc
    injection hc with hc
    subst hc
    refine ⟨_, List.mem_append_left _ (List.mem_append_left _ (List.mem_append_left _ (List.mem_append_right _ (List.mem_singleton.2 rfl)))), ?_⟩
    exact asim .riviera (.inl rfl) h
  | activeHdl =>
    simp only [testCmds, reduceCtorEq, if_false] at hc
    split at hc
    · exact absurd hc (by simp)
    · injection hc with hc
      subst hc
      refine ⟨_, List.mem_append_left _ (List.mem_append_left _ (List.mem_cons_of_mem _ (List.mem_singleton.2 rfl))), ?_⟩
      exact asim .activeHdl (.inr rfl) h

/-! ### Parameters -/

/-- `-gNAME=VALUE`. -/
def gOpt (a : Text) : Option (Text × Text) := (afterPrefix (lit "-g") a).bind nameValue

theorem gOpt_nil : gOpt [] = none := rfl
theorem gOpt_one {c : Nat} (r : Text) (h : c ≠ 45) : gOpt (c :: r) = none := by
  simp [gOpt, afterPrefix, lit, ofStr, List.isPrefixOf, Ne.symm h]
theorem gOpt_two {c : Nat} (r : Text) (h : c ≠ 103) : gOpt (45 :: c :: r) = none := by
  simp [gOpt, afterPrefix, lit, ofStr, List.isPrefixOf, Ne.symm h]
theorem gOpt_gui : gOpt [45, 103, 117, 105] = none := by decide

theorem gOpt_noOption {a : Text} (h : NoOption a) : gOpt a = none := by
  cases a with
  | nil => rfl
  | cons c a => exact gOpt_one a (h c rfl).1

theorem gOpt_tcl {t : Tool} (ht : t = .riviera ∨ t = .activeHdl) {a : Text} (h : TclSafe a) (n : Text) :
    paramOf t n (asTclValue a) = gOpt a := by
  have e := tclWord_value a h.1 h.2
  rcases ht with rfl | rfl <;> simp [paramOf, e, gOpt]

theorem gOpt_param {d : Text × Text} (h : 61 ∉ d.1) : gOpt (lit "-g" ++ nameEq d) = some d := by
  rw [gOpt, after_eq, Option.bind_some, nameValue_eq h]

/-- Whatever is given as parameters to the last call that gives any, reaches the simulation. -/
def C132_parameters_full : Prop :=
  ∀ (cfg : Cfg) (t : Tool) (cwd : Text) (calls : List RunCmd.Call) (ps : Option (List (Text × Text))) (dir : Option Text) (o : TestOpts)
    (cmds : List Command),
    TidyTest cfg t (((calls.filterMap buildOf).getLast?.map fun b => b.args.map (·.2)).getD [])
      (lastOr (calls.filterMap givenParams ++ ps.toList) []) (lastOr (calls.filterMap givenDir ++ dir.toList) (cwd ++ lit "/sim_build")) o →
    testAfter cfg t cwd calls ps dir o = .ok cmds →
    ∃ cmd ∈ cmds, cmd.filterMap (paramOf t o.toplevel) = lastOr (calls.filterMap givenParams ++ ps.toList) []

theorem params_last (calls : List RunCmd.Call) (s : Obj) :
    (calls.foldl Obj.call s).parameters = lastOr (calls.filterMap givenParams) s.parameters := by
  induction calls generalizing s with
  | nil => rfl
  | cons c calls ih =>
    rw [List.foldl_cons, ih]
    cases c with
    | build b =>
      rw [List.filterMap_cons_some (f := givenParams) (b := b.parameters) rfl, lastOr, lastOr, List.getLast?_cons]
      rfl
    | test ps dir o =>
      cases ps with
      | none => rw [List.filterMap_cons_none rfl]; rfl
      | some ps =>
        rw [List.filterMap_cons_some (f := givenParams) (b := ps) rfl, lastOr, lastOr, List.getLast?_cons]
        rfl

theorem dir_last (calls : List RunCmd.Call) (s : Obj) :
    (calls.foldl Obj.call s).buildDir = lastOr (calls.filterMap givenDir) s.buildDir := by
  induction calls generalizing s with
  | nil => rfl
  | cons c calls ih =>
    rw [List.foldl_cons, ih]
    cases c with
    | build b =>
      rw [List.filterMap_cons_some (f := givenDir) (b := b.buildDir) rfl, lastOr, lastOr, List.getLast?_cons]
      rfl
    | test ps dir o =>
      cases dir with
      | none => rw [List.filterMap_cons_none rfl]; rfl
      | some dir =>
        rw [List.filterMap_cons_some (f := givenDir) (b := dir) rfl, lastOr, lastOr, List.getLast?_cons]
        rfl

theorem build_last (calls : List RunCmd.Call) (s : Obj) :
    (calls.foldl Obj.call s).last = (calls.filterMap buildOf).getLast?.or s.last := by
  induction calls generalizing s with
  | nil => simp
  | cons c calls ih =>
    rw [List.foldl_cons, ih]
    cases c with
    | build b =>
      rw [List.filterMap_cons_some (f := buildOf) (b := b) rfl, List.getLast?_cons]
      cases (calls.filterMap buildOf).getLast? <;> rfl
    | test ps dir o => rw [List.filterMap_cons_none rfl]; rfl

theorem lastOr_append {α : Type} (l : List α) (x : Option α) (d : α) : lastOr (l ++ x.toList) d = x.getD (lastOr l d) := by
  cases x <;> simp [lastOr]

theorem testAfter_eq (cfg : Cfg) (t : Tool) (cwd : Text) (calls : List RunCmd.Call) (ps : Option (List (Text × Text))) (dir : Option Text)
    (o : TestOpts) : testAfter cfg t cwd calls ps dir o = testCmds cfg t (calls.filterMap buildOf).getLast?
      (lastOr (calls.filterMap givenParams ++ ps.toList) []) (lastOr (calls.filterMap givenDir ++ dir.toList) (cwd ++ lit "/sim_build")) o := by
  rw [lastOr_append, lastOr_append]
  simp only [testAfter, Obj.call, params_last, dir_last, build_last, Obj.new, Option.or_none]

theorem test_params (cfg : Cfg) (t : Tool) (last : Option BuildOpts) (ps : List (Text × Text)) (dir : Text) (o : TestOpts)
    (cmds : List Command) (top : Text) (ht : t = .questa ∨ t = .ghdl ∨ t = .nvc ∨ t = .riviera ∨ t = .activeHdl)
    (h : TidyTest cfg t ((last.map allArgs).getD []) ps dir o) (hc : testCmds cfg t last ps dir o = .ok cmds) :
    ∃ cmd ∈ cmds, cmd.filterMap (paramOf t top) = ps := by
  have nil : ∀ l : List Text, (∀ a ∈ l, gOpt a = none) → l.filterMap gOpt = [] := fun l hl => List.filterMap_eq_nil_iff.2 hl
  have f1 : cfg.cmdPrefix.filterMap gOpt = [] := nil _ fun a ha => h.noParam a (by simp [ha])
  have f2 : cfg.cmdSuffix.filterMap gOpt = [] := nil _ fun a ha => h.noParam a (by simp [ha])
  have f3 : ∀ l, o.preCmd = some l → l.filterMap gOpt = [] := fun l hl => nil _ fun a ha => h.noParam a (by simp [ha, hl])
  have f4 : ∀ i s, gOpt (cfg.libEntry i s) = none := fun i s => gOpt_noOption (h.libEntry i s)
  have f6 : ∀ x, gOpt (o.library ++ x) = none := fun x => gOpt_noOption (noOption_append x h.library h.library')
  have f7 : gOpt o.toplevel = none := gOpt_noOption h.toplevel
  have f8 : (ps.map fun d => lit "-g" ++ nameEq d).filterMap gOpt = ps := by
    rw [filterMap_map_some ps (fun d => lit "-g" ++ nameEq d) gOpt id fun d hd => gOpt_param (h.names d hd), List.map_id]
  have f9 : o.elabArgs.filterMap gOpt = [] := nil _ fun a ha => h.noParam a (by simp [ha])
  have f10 : gOpt dir = none := gOpt_noOption h.buildDir
  have f11 : o.testArgs.filterMap gOpt = [] := nil _ fun a ha => h.noParam a (by simp [ha])
  have f12 : o.plusargs.filterMap gOpt = [] := nil _ fun a ha => h.noParam a (by simp [ha])
  have asim : ∀ t : Tool, t = .riviera ∨ t = .activeHdl → TidyTest cfg t ((last.map allArgs).getD []) ps dir o →
      ([lit "asim", lit "+access", lit "+w_nets", lit "-interceptcoutput"] ++
        (if o.lang = "vhdl" then [lit "-loadvhpi", asTclValue (cfg.libEntry "vhpi" "riviera")]
          else [lit "-pli", asTclValue (cfg.libEntry "vpi" "riviera")]) ++
        (o.testArgs ++ ps.map (paramOpt none t)).map asTclValue ++ [asTclValue (o.library ++ [46] ++ o.toplevel)] ++
        o.plusargs.map asTclValue).filterMap (paramOf t top) = ps := by
    intro t ht h
    obtain ⟨t1, t2⟩ := h.tcl ht
    have g0 : ∀ n, paramOf t n (lit "asim") = none ∧ paramOf t n (lit "+access") = none ∧
        paramOf t n (lit "+w_nets") = none ∧ paramOf t n (lit "-interceptcoutput") = none ∧
        paramOf t n (lit "-loadvhpi") = none ∧ paramOf t n (lit "-pli") = none := by
      intro n
      rcases ht with rfl | rfl <;> simp only [paramOf] <;> decide +kernel
    obtain ⟨g1, g2, g3, g4, g5, g6⟩ := g0 top
    have g8 : ∀ i, i = "vpi" ∨ i = "vhpi" → paramOf t top (asTclValue (cfg.libEntry i "riviera")) = none := fun i hi => by
      rw [gOpt_tcl ht (t2 i hi), f4]
    have g9 : paramOf t top (asTclValue (o.library ++ [46] ++ o.toplevel)) = none := by
      rw [gOpt_tcl ht (t1 _ (by simp)), List.append_assoc, f6]
    have lst : ∀ l : List Text, (∀ a ∈ l, TclSafe a) → (l.map asTclValue).filterMap (paramOf t top) = l.filterMap gOpt := by
      intro l
      induction l with
      | nil => intro _; rfl
      | cons a l ih =>
        intro hl
        rw [List.map_cons, List.filterMap_cons, List.filterMap_cons, gOpt_tcl ht (hl a List.mem_cons_self),
          ih fun a ha => hl a (List.mem_cons_of_mem _ ha)]
    have e : paramOpt none t = fun d => lit "-g" ++ nameEq d := by rcases ht with rfl | rfl <;> rfl
    have hs : ∀ a ∈ ps.map (fun d => lit "-g" ++ nameEq d), TclSafe a := fun a ha => by
      obtain ⟨d, hd, rfl⟩ := List.mem_map.1 ha
      have hs : TclSafe (d.1 ++ [61] ++ d.2) := t1 _ (by simp; exact .inr (.inr (.inr ⟨d.1, d.2, hd, rfl⟩)))
      refine ⟨by simp [lit, ofStr], fun c hc => ?_⟩
      rcases List.mem_append.1 hc with hc | hc
      · simp [lit, ofStr] at hc
        omega
      · exact hs.2 c hc
    rw [e]
    simp only [List.map_append, List.filterMap_append, List.filterMap_cons, List.filterMap_nil, g1, g2, g3, g4, g9,
      lst _ hs, f8, lst o.testArgs fun a ha => t1 a (by simp [ha]), lst o.plusargs fun a ha => t1 a (by simp [ha]), f11, f12]
    split <;> simp [g5, g6, g8]
  rcases ht with rfl | rfl | rfl | rfl | rfl
  · simp only [testCmds] at hc
    split at hc
    · exact absurd hc (by simp)
    · split at hc
      · exact absurd hc (by simp)
      · injection hc with hc
        subst hc
        refine ⟨_, List.mem_singleton.2 rfl, ?_⟩
        have f13 : ∀ i, (questaLib cfg false i).filterMap gOpt = [] := fun i => by
          unfold questaLib
          split
          · simp [lit, ofStr, gOpt_one, gOpt_two]
          · split <;> simp [lit, ofStr, gOpt_one, gOpt_two, f4]
        have e : paramOpt none .questa = fun d => lit "-g" ++ nameEq d := rfl
        show List.filterMap gOpt _ = _
        rw [e]
        simp only [List.filterMap_append, f1, f2, f8, f11, f12, f13]
        cases hp : o.preCmd <;> cases o.waves <;> cases o.gui <;> cases o.verbose <;>
          (rw [hp] at f3
           simp [List.filterMap_cons, f6, f3, lit, ofStr, gOpt_one, gOpt_two, gOpt_nil, gOpt_gui])
  · simp only [testCmds] at hc
    split at hc
    · exact absurd hc (by simp)
    · split at hc
      · exact absurd hc (by simp)
      · rename_i r hr
        injection hc with hc
        subst hc
        refine ⟨_, List.mem_singleton.2 rfl, ?_⟩
        have f13 : r.filterMap gOpt = [] := by
          split at hr
          · split at hr
            · split at hr
              · injection hr with hr
                subst hr
                simp [lit, ofStr, gOpt_two]
              · exact absurd hr (by simp)
            · injection hr with hr
              subst hr
              rfl
          · injection hr with hr
            subst hr
            rfl
        have e : paramOpt none .ghdl = fun d => lit "-g" ++ nameEq d := rfl
        show List.filterMap gOpt _ = _
        rw [e]
        simp only [List.filterMap_append, f1, f2, f8, f11, f12, f13, wavesFile]
        cases o.waves <;> cases o.gui <;>
          simp [List.filterMap_cons, f7, lit, ofStr, gOpt_one, gOpt_two, gOpt_nil]
  · simp only [testCmds] at hc
    split at hc
    · exact absurd hc (by simp)
    · rename_i b
      injection hc with hc
      subst hc
      refine ⟨_, List.mem_singleton.2 rfl, ?_⟩
      have f13 : (allArgs b).filterMap gOpt = [] := nil _ fun a ha => h.noParam a (by simp [ha])
      have e : paramOpt none .nvc = fun d => lit "-g" ++ nameEq d := rfl
      show List.filterMap gOpt _ = _
      rw [e]
      simp only [List.filterMap_append, f1, f2, f8, f9, f11, f12, f13, wavesFile]
      cases o.waves <;> cases o.gui <;>
        simp [List.filterMap_cons, f7, f10, lit, ofStr, gOpt_one, gOpt_two, gOpt_nil]
  · simp only [testCmds, if_true] at hc
    injection hc with hc
    subst hc
    refine ⟨_, List.mem_append_left _ (List.mem_append_left _ (List.mem_append_left _ (List.mem_append_right _ (List.mem_singleton.2 rfl)))), ?_⟩
    exact asim .riviera (.inl rfl) h
  · simp only [testCmds, reduceCtorEq, if_false] at hc
    split at hc
    · exact absurd hc (by simp)
    · injection hc with hc
      subst hc
      refine ⟨_, List.mem_append_left _ (List.mem_append_left _ (List.mem_cons_of_mem _ (List.mem_singleton.2 rfl))), ?_⟩
      exact asim .activeHdl (.inr rfl) h

/-- `C132_parameters_full` holds for Questa, GHDL, NVC, Riviera-PRO and Active-HDL. Missing: the other simulators are given
parameters only when the design is built; parameters of `test` are silently ignored. -/
theorem C132_parameters_partial (cfg : Cfg) (t : Tool) (cwd : Text) (calls : List RunCmd.Call) (ps : Option (List (Text × Text)))
    (dir : Option Text) (o : TestOpts) (cmds : List Command) (ht : t = .questa ∨ t = .ghdl ∨ t = .nvc ∨ t = .riviera ∨ t = .activeHdl)
    (h : TidyTest cfg t (((calls.filterMap buildOf).getLast?.map fun b => b.args.map (·.2)).getD [])
      (lastOr (calls.filterMap givenParams ++ ps.toList) []) (lastOr (calls.filterMap givenDir ++ dir.toList) (cwd ++ lit "/sim_build")) o)
    (hc : testAfter cfg t cwd calls ps dir o = .ok cmds) :
    ∃ cmd ∈ cmds, cmd.filterMap (paramOf t o.toplevel) = lastOr (calls.filterMap givenParams ++ ps.toList) [] := by
  rw [testAfter_eq] at hc
  exact test_params cfg t _ _ _ o cmds o.toplevel ht h hc

/-! ### Examples -/

def testEx : TestOpts where
  toplevel := lit "dut"
  library := lit "top"
  lang := "verilog"
  interfaces := ["vpi"]
  preCmd := none
  elabArgs := [lit "-Vtop"]
  testArgs := [lit "-v", lit "+seed=1"]
  plusargs := [lit "+trace", lit "+level=3"]
  waves := true
  gui := false
  verbose := false
  timescale := none
  testName := lit "test_dut"
  testDir := lit "/work/sim_build"

theorem tidyTestEx (t : Tool) (ps : List (Text × Text)) (hps : ps = [(lit "DEPTH", lit "5")] ∨ ps = []) :
    TidyTest cfgEx t [lit "-Wall"] ps (lit "/work/sim_build") testEx where
  buildDir := by simp [NoOption, lit, ofStr]
  buildDir' := by simp [lit, ofStr]
  toplevel := by simp [NoOption, testEx, lit, ofStr]
  library := by simp [NoOption, testEx, lit, ofStr]
  library' := by simp [testEx, lit, ofStr]
  libEntry := (tidyEx t).libEntry
  noPlus := by decide +kernel
  timescale ts hts := by simp [testEx] at hts
  names := by rcases hps with rfl | rfl <;> decide +kernel
  noParam := by decide +kernel
  tcl _ := by
    refine ⟨?_, fun i hi => ?_⟩
    · unfold TclSafe
      rcases hps with rfl | rfl <;> decide +kernel
    · unfold TclSafe
      rcases hi with rfl | rfl <;> decide +kernel

/-- Icarus Verilog ignores the parameters of `test`. -/
theorem C132_parameters_counterexample : ¬ C132_parameters_full := by
  intro hf
  obtain ⟨cmd, hm, e⟩ := hf cfgEx .icarus (lit "/work") [.build buildEx] (some [(lit "DEPTH", lit "5")]) none testEx _
    (tidyTestEx .icarus _ (.inl rfl)) rfl
  rw [List.mem_singleton.1 hm] at e
  revert e
  decide +kernel

example : ∃ cmds, testAfter cfgEx .questa (lit "/work") [.build buildEx] (some [(lit "DEPTH", lit "5")]) none testEx = .ok cmds ∧
    TidyTest cfgEx .questa [lit "-Wall"] (lastOr [buildEx.parameters, [(lit "DEPTH", lit "5")]] []) (lit "/work/sim_build") testEx :=
  ⟨_, rfl, tidyTestEx .questa _ (.inl rfl)⟩

example : testAfter cfgEx .questa (lit "/work") [.build buildEx] (some [(lit "DEPTH", lit "5")]) none testEx = .ok [[lit "vsim", lit "-quiet",
    lit "-c", lit "-onfinish", lit "exit", lit "-pli", lit "/usr/lib/libcocotbvpi_questa.so", lit "-v", lit "+seed=1", lit "-gDEPTH=5",
    lit "top.dut", lit "+trace", lit "+level=3", lit "-do", lit "log -recursive /*;run -all; quit"]] := by decide +kernel

example : ∃ cmds, testCmds cfgEx .riviera none [] (lit "/work/sim_build") testEx = .ok cmds := ⟨_, rfl⟩

/-! ### Elaboration arguments -/

/-- The arguments for the elaboration reach the simulator. -/
def C132_elab_full : Prop :=
  ∀ (cfg : Cfg) (t : Tool) (last : Option BuildOpts) (ps : List (Text × Text)) (dir : Text) (o : TestOpts) (cmds : List Command),
    testCmds cfg t last ps dir o = .ok cmds → ∀ a ∈ o.elabArgs, ∃ cmd ∈ cmds, a ∈ cmd

/-- NVC: the elaboration arguments come in one block after `-e` and before the simulation's `-r`. Missing: the other simulators
silently ignore them. -/
theorem C132_elab_partial (cfg : Cfg) (last : Option BuildOpts) (ps : List (Text × Text)) (dir : Text) (o : TestOpts) (cmds : List Command)
    (hc : testCmds cfg .nvc last ps dir o = .ok cmds) :
    ∃ cmd ∈ cmds, ∃ x y z, cmd = x ++ [lit "-e"] ++ y ++ o.elabArgs ++ z ∧ lit "-r" ∈ z := by
  simp only [testCmds] at hc
  split at hc
  · exact absurd hc (by simp)
  · injection hc with hc
    subst hc
    rename_i b
    refine ⟨_, List.mem_singleton.2 rfl, cfg.cmdPrefix ++
      [lit "nvc", lit "--work=" ++ o.library ++ [58] ++ dir ++ [47] ++ o.library, lit "-L", dir] ++ allArgs b,
      [o.toplevel, lit "--no-save", lit "--jit"],
      ps.map (paramOpt none .nvc) ++ [lit "-r"] ++ o.testArgs ++ [lit "--load=" ++ cfg.libEntry "vhpi" "nvc"] ++ o.plusargs ++
        (if o.waves || o.gui then [lit "--wave=" ++ (o.toplevel ++ lit ".fst")] else []) ++ cfg.cmdSuffix, ?_, ?_⟩
    · simp only [List.append_assoc]
      rfl
    · simp

theorem C132_elab_counterexample : ¬ C132_elab_full := by
  intro hf
  obtain ⟨cmd, hm, ha⟩ := hf cfgEx .ghdl none [] (lit "/work/sim_build") testEx _ rfl (lit "-Vtop") List.mem_cons_self
  rw [List.mem_singleton.1 hm] at ha
  revert ha
  decide +kernel

example : ∃ cmds, testCmds cfgEx .nvc (some buildEx) [] (lit "/work/sim_build") testEx = .ok cmds := ⟨_, rfl⟩

/-! ### `SIM_CMD_PREFIX` and `SIM_CMD_SUFFIX` -/

/-- The simulation is started with the prefix before and the suffix behind its command. -/
def C132_prefix_full : Prop :=
  ∀ (cfg : Cfg) (t : Tool) (last : Option BuildOpts) (ps : List (Text × Text)) (dir file : Text) (o : TestOpts) (cmds : List Command),
    testProcs cfg t last ps dir file o = .ok cmds → ∃ cmd, cmds.getLast? = some (cfg.cmdPrefix ++ cmd ++ cfg.cmdSuffix)

def Starts (p l : List Text) : Prop := ∃ m, m ≠ [] ∧ l = p ++ m

theorem starts_base {p x : List Text} (h : x ≠ []) : Starts p (p ++ x) := ⟨x, h, rfl⟩
theorem starts_app {p l : List Text} (y : List Text) (h : Starts p l) : Starts p (l ++ y) := by
  obtain ⟨m, hm, rfl⟩ := h
  exact ⟨m ++ y, by simp [hm], by rw [List.append_assoc]⟩
theorem around {p l s : List Text} (h : Starts p l) : ∃ m, m ≠ [] ∧ some (l ++ s) = some (p ++ m ++ s) := by
  obtain ⟨m, hm, rfl⟩ := h
  exact ⟨m, hm, rfl⟩

/-- `C132_prefix_full` without DSim. Missing: DSim, which puts them around the command of the build. -/
theorem C132_prefix_partial (cfg : Cfg) (t : Tool) (last : Option BuildOpts) (ps : List (Text × Text)) (dir file : Text) (o : TestOpts)
    (cmds : List Command) (ht : t ≠ .dsim) (hc : testProcs cfg t last ps dir file o = .ok cmds) :
    ∃ cmd, cmd ≠ [] ∧ cmds.getLast? = some (cfg.cmdPrefix ++ cmd ++ cfg.cmdSuffix) := by
  unfold testProcs at hc
  split at hc
  · exact absurd hc (by simp)
  · rename_i l hl
    split at hc
    · injection hc with hc
      subst hc
      exact ⟨_, by simp, rfl⟩
    · rename_i hn
      injection hc with hc
      subst hc
      cases t with
      | dsim => exact absurd rfl ht
      | riviera => exact absurd (.inl rfl) hn
      | activeHdl => exact absurd (.inr rfl) hn
      | icarus | verilator | vcs | nvc =>
        simp only [testCmds] at hl
        split at hl
        · exact absurd hl (by simp)
        · injection hl with hl
          subst hl
          rw [List.getLast?_singleton]
          refine around ?_
          repeat first | exact starts_base (by simp) | refine starts_app _ ?_
      | questa | questaQis | ghdl =>
        simp only [testCmds] at hl
        split at hl
        · exact absurd hl (by simp)
        · split at hl
          · exact absurd hl (by simp)
          · injection hl with hl
            subst hl
            rw [List.getLast?_singleton]
            refine around ?_
            repeat first | exact starts_base (by simp) | refine starts_app _ ?_
      | xcelium =>
        simp only [testCmds] at hl
        split at hl
        · exact absurd hl (by simp)
        · split at hl
          · exact absurd hl (by simp)
          · split at hl
            · exact absurd hl (by simp)
            · injection hl with hl
              subst hl
              rw [List.getLast?_cons_cons]
              rw [List.getLast?_singleton]
              refine around ?_
              repeat first | exact starts_base (by simp) | refine starts_app _ ?_

theorem C132_prefix_counterexample : ¬ C132_prefix_full := by
  intro hf
  obtain ⟨cmd, h⟩ := hf { cfgEx with cmdPrefix := [lit "nice"] } .dsim none [] (lit "/work/sim_build") (lit "/tmp/x") testEx _ rfl
  injection h with h
  injection h with h _
  revert h
  decide +kernel

example : ∃ cmds, testProcs { cfgEx with cmdPrefix := [lit "nice"] } .activeHdl none [] (lit "/work/sim_build") (lit "/tmp/x") testEx = .ok cmds :=
  ⟨_, rfl⟩

/-! ### Commands before the simulation -/

/-- The commands given as `pre_cmd` are all run, in their order, or the call is refused. For Riviera-PRO a command of the model is
a line of the script. -/
def C132_pre_full : Prop :=
  ∀ (cfg : Cfg) (t : Tool) (last : Option BuildOpts) (ps : List (Text × Text)) (dir : Text) (o : TestOpts) (cmds : List Command) (l : List Text),
    o.preCmd = some l → testCmds cfg t last ps dir o = .ok cmds →
    l.Sublist (cmds.flatMap doCommands) ∨ (l.map fun s => [s ++ [59]]).Sublist cmds

theorem doCommands_append (a b : List Text) (h : ∀ x ∈ a, x ≠ lit "-do") : doCommands (a ++ b) = doCommands b := by
  induction a with
  | nil => rfl
  | cons x a ih =>
    have hx := h x List.mem_cons_self
    have ih := ih fun y hy => h y (List.mem_cons_of_mem _ hy)
    rw [List.cons_append, ← ih]
    cases hl : a ++ b with
    | nil => rfl
    | cons y l => rw [doCommands, if_neg hx]

theorem do_found {A : List Text} (c : Text) (B : List Text) (h : ∀ x ∈ A, x ≠ lit "-do") :
    [c].Sublist (doCommands (A ++ (lit "-do" :: [c]) ++ B)) := by
  rw [List.append_assoc, doCommands_append A _ h]
  show [c].Sublist (doCommands (lit "-do" :: c :: B))
  rw [doCommands, if_pos rfl]
  exact List.Sublist.cons_cons _ (List.nil_sublist _)

def NoDo (l : List Text) : Prop := ∀ x ∈ l, x ≠ lit "-do"

theorem noDo_nil : NoDo [] := fun _ h => absurd h (by simp)
theorem noDo_cons {a l} (h : a ≠ lit "-do") (hl : NoDo l) : NoDo (a :: l) := fun x hx => by
  rcases List.mem_cons.1 hx with rfl | hx
  · exact h
  · exact hl x hx
theorem noDo_append {l m} (h : NoDo l) (hl : NoDo m) : NoDo (l ++ m) := fun x hx => by
  rcases List.mem_append.1 hx with hx | hx
  · exact h x hx
  · exact hl x hx
theorem noDo_ite {l m} {c : Prop} [Decidable c] (h : NoDo l) (hl : NoDo m) : NoDo (if c then l else m) := by
  split <;> assumption
theorem noDo_long (a : Text) {b : Text} (h : b.length > 3) : a ++ b ≠ lit "-do" := fun e => by
  have := congrArg List.length e
  simp [lit, ofStr] at this
  omega

macro "noDo" h:term : tactic => `(tactic| (
  repeat' first
    | with_reducible refine noDo_append ?_ ?_
    | with_reducible exact noDo_nil
    | with_reducible refine noDo_cons ?_ ?_
    | with_reducible refine noDo_ite ?_ ?_
    | with_reducible assumption
    | with_reducible exact $h _
    | (with_reducible exact noDo_long _ (by decide))
    | (split; all_goals simp [lit, ofStr]; done)
    | (simp [lit, ofStr]; done)))

theorem noDo_lib (cfg : Cfg) (q : Bool) (i : String) (h : cfg.libEntry "vpi" "questa" ≠ lit "-do") : NoDo (questaLib cfg q i) := by
  unfold questaLib
  noDo True.intro

theorem pre_refused (cfg : Cfg) (t : Tool) (last : Option BuildOpts) (ps : List (Text × Text)) (dir : Text) (o : TestOpts) (l : List Text)
    (ht : t ≠ .questa ∧ t ≠ .questaQis ∧ t ≠ .riviera ∧ t ≠ .nvc) (hp : o.preCmd = some l) :
    testCmds cfg t last ps dir o = .error .runtimeError := by
  obtain ⟨h1, h2, h3, h4⟩ := ht
  cases t <;> first
    | contradiction
    | (simp only [testCmds, hp, Option.isSome_some, if_true, reduceCtorEq, if_false]; done)

/-- The commands before the simulation are run by Riviera-PRO in their order; by Questa (both flows) if it is only one; other
simulators refuse them. Missing: Questa runs only the first of several commands, NVC silently ignores them. -/
theorem C132_pre_partial (cfg : Cfg) (t : Tool) (last : Option BuildOpts) (ps : List (Text × Text)) (dir : Text) (o : TestOpts)
    (cmds : List Command) (l : List Text) (ht : t ≠ .nvc) (hp : o.preCmd = some l) (hq : t = .questa ∨ t = .questaQis → ∃ c, l = [c])
    (hdo : ∀ a ∈ cfg.cmdPrefix ++ o.testArgs ++ o.plusargs ++ [o.library ++ [46] ++ o.toplevel, cfg.libEntry "vpi" "questa", dir] ++
      o.timescale.toList.map (·.2), a ≠ lit "-do")
    (hc : testCmds cfg t last ps dir o = .ok cmds) :
    l.Sublist (cmds.flatMap doCommands) ∨ (l.map fun s => [s ++ [59]]).Sublist cmds := by
  cases t with
  | nvc => exact absurd rfl ht
  | questa =>
    left
    obtain ⟨c, rfl⟩ := hq (.inl rfl)
    simp only [testCmds, hp] at hc
    split at hc
    · exact absurd hc (by simp)
    · split at hc
      · exact absurd hc (by simp)
      · injection hc with hc
        subst hc
        rw [List.flatMap_singleton, List.append_assoc _ [lit "-do", _]]
        refine do_found c _ ?_
        change NoDo _
        have g1 : NoDo cfg.cmdPrefix := fun x hx => hdo x (by simp [hx])
        have g2 : NoDo o.testArgs := fun x hx => hdo x (by simp [hx])
        have g3 : NoDo o.plusargs := fun x hx => hdo x (by simp [hx])
        have g4 : o.library ++ [46] ++ o.toplevel ≠ lit "-do" := hdo _ (by simp)
        have g5 := fun i => noDo_lib cfg false i (hdo _ (by simp))
        have g7 : NoDo (ps.map (paramOpt none .questa)) := fun x hx => by
          obtain ⟨d, _, rfl⟩ := List.mem_map.1 hx
          simp [paramOpt, lit, ofStr]
        noDo g5
  | questaQis =>
    left
    obtain ⟨c, rfl⟩ := hq (.inr rfl)
    simp only [testCmds, hp] at hc
    split at hc
    · exact absurd hc (by simp)
    · split at hc
      · exact absurd hc (by simp)
      · injection hc with hc
        subst hc
        rw [List.flatMap_singleton, List.append_assoc _ [lit "-do", _]]
        refine do_found c _ ?_
        change NoDo _
        have g1 : NoDo cfg.cmdPrefix := fun x hx => hdo x (by simp [hx])
        have g2 : NoDo o.testArgs := fun x hx => hdo x (by simp [hx])
        have g3 : NoDo o.plusargs := fun x hx => hdo x (by simp [hx])
        have g4 : o.library ++ [46] ++ o.toplevel ≠ lit "-do" := hdo _ (by simp)
        have g5 := fun i => noDo_lib cfg true i (hdo _ (by simp))
        noDo g5
        cases hts : o.timescale with
        | none => exact noDo_nil
        | some ts =>
          have g6 : ts.2 ≠ lit "-do" := hdo ts.2 (by simp [hts])
          exact noDo_ite (noDo_cons (by simp [lit, ofStr]) (noDo_cons g6 noDo_nil)) noDo_nil
  | riviera =>
    right
    simp only [testCmds, if_true, hp] at hc
    injection hc with hc
    subst hc
    refine List.Sublist.trans ?_ (List.sublist_append_left _ _)
    refine List.Sublist.trans ?_ (List.sublist_append_left _ _)
    exact List.sublist_append_right _ _
  | _ => rw [pre_refused cfg _ last ps dir o l (by decide) hp] at hc; exact absurd hc (by simp)

theorem C132_pre_counterexample : ¬ C132_pre_full := by
  intro hf
  have := hf cfgEx .questa none [] (lit "/work/sim_build") { testEx with preCmd := some [lit "set a 1", lit "set b 2"] } _ _ rfl rfl
  revert this
  decide +kernel

example : ∃ cmds, testCmds cfgEx .questaQis none [] (lit "/work/sim_build") { testEx with preCmd := some [lit "do setup.tcl"] } = .ok cmds ∧
    ∀ a ∈ cfgEx.cmdPrefix ++ testEx.testArgs ++ testEx.plusargs ++ [testEx.library ++ [46] ++ testEx.toplevel, cfgEx.libEntry "vpi" "questa",
      lit "/work/sim_build"] ++ testEx.timescale.toList.map (·.2), a ≠ lit "-do" :=
  ⟨_, rfl, by decide +kernel⟩

end Verif
