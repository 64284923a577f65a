import Verif.Spec.Waves
import Verif.Props.RunTest
/-!
# C133: waveform files
-/
namespace Verif

open RunCmd Runner Spec Waves

theorem options_cons (v : VBuild) (a : Text) (rest : List Text) (o : Opts) : options v (a :: rest) o =
    if a = lit "--coverage-per-instance" then
      if v.coverage then options v rest { o with perInstance := true } else .exit (-1)
    else if a = lit "--trace" then
      if v.trace then options v rest { o with trace := true } else .exit (-1)
    else if a = lit "--trace-flush" then options v rest { o with flush := true }
    else if a = lit "--trace-file" then
      match rest with
      | f :: rest => options v rest { o with file := f }
      | [] => .exit (-1)
    else if a = lit "--help" then .exit 0
    else options v rest o := by
  rw [options.eq_def]
  cases rest <;> rfl

/-- The program for Verilator: the first item that stops it decides its exit status; otherwise it records waveforms if and
only if `--trace` was given, into the file of the last `--trace-file`. -/
theorem C133_options (v : VBuild) (is : List Item) (ws : List Text) (h : OptsWritten is ws) :
    start v ws = match is.findSome? (Stops v) with
      | some c => .exit c
      | none => .run ⟨((is.filterMap Item.name).getLast?).getD (defaultFile v.format), decide (.trace ∈ is), decide (.flush ∈ is),
          decide (.perInstance ∈ is)⟩ := by
  have key : ∀ (o : Opts), options v ws o = match is.findSome? (Stops v) with
      | some c => .exit c
      | none => .run ⟨((is.filterMap Item.name).getLast?).getD o.file, o.trace || decide (.trace ∈ is), o.flush || decide (.flush ∈ is),
          o.perInstance || decide (.perInstance ∈ is)⟩ := by
    induction h with
    | nil => intro o; simp [options]
    | @word i w is ws hi hw ih =>
      intro o
      rw [options_cons]
      cases i with
      | perInstance =>
        injection hi with hi
        subst hi
        rw [if_pos rfl]
        by_cases hv : v.coverage = true
        · rw [if_pos hv, ih]
          simp [List.findSome?_cons, List.filterMap_cons, List.getLast?_cons, Stops, hv, Item.name]
        · rw [if_neg hv]
          simp [List.findSome?_cons, List.filterMap_cons, List.getLast?_cons, Stops, hv]
      | trace =>
        injection hi with hi
        subst hi
        rw [if_neg (by decide), if_pos rfl]
        by_cases hv : v.trace = true
        · rw [if_pos hv, ih]
          simp [List.findSome?_cons, List.filterMap_cons, List.getLast?_cons, Stops, hv, Item.name]
        · rw [if_neg hv]
          simp [List.findSome?_cons, List.filterMap_cons, List.getLast?_cons, Stops, hv]
      | flush =>
        injection hi with hi
        subst hi
        rw [if_neg (by decide), if_neg (by decide), if_pos rfl, ih]
        simp [List.findSome?_cons, List.filterMap_cons, List.getLast?_cons, Stops, Item.name]
      | help =>
        injection hi with hi
        subst hi
        rw [if_neg (by decide), if_neg (by decide), if_neg (by decide), if_neg (by decide), if_pos rfl]
        simp [List.findSome?_cons, List.filterMap_cons, List.getLast?_cons, Stops]
      | file f => exact absurd hi (by simp [Item.word])
      | other a => exact absurd hi (by simp [Item.word])
    | @file f is ws hw ih =>
      intro o
      rw [options_cons, if_neg (by decide), if_neg (by decide), if_neg (by decide), if_pos rfl]
      show options v ws _ = _
      rw [ih]
      simp [List.findSome?_cons, List.filterMap_cons, List.getLast?_cons, Stops, Item.name]
    | @other a is ws ha hw ih =>
      intro o
      obtain ⟨h1, h2, h3, h4, h5⟩ := ha
      rw [options_cons, if_neg h1, if_neg h2, if_neg h3, if_neg h4, if_neg h5, ih]
      simp [List.findSome?_cons, List.filterMap_cons, List.getLast?_cons, Stops, Item.name]
  rw [start, key]
  simp

/-- The only command line that cannot be read as items ends in `--trace-file`; the program refuses it, if nothing stopped it before. -/
theorem C133_options_total (ws : List Text) :
    (∃ is, OptsWritten is ws) ∨ (∃ is pre, OptsWritten is pre ∧ ws = pre ++ [lit "--trace-file"] ∧
      ∀ v, start v ws = .exit ((is.findSome? (Stops v)).getD (-1))) := by
  have key : ∀ (n : Nat) (ws : List Text), ws.length ≤ n → (∃ is, OptsWritten is ws) ∨ (∃ is pre, OptsWritten is pre ∧
      ws = pre ++ [lit "--trace-file"]) := by
    intro n
    induction n with
    | zero =>
      intro ws hn
      rw [List.length_eq_zero_iff.1 (Nat.le_zero.1 hn)]
      exact .inl ⟨[], .nil⟩
    | succ n ih =>
      intro ws hn
      cases ws with
      | nil => exact .inl ⟨[], .nil⟩
      | cons a ws =>
        have hw := ih ws (by simpa using hn)
        have word : ∀ i : Item, i.word = some a → (∃ is, OptsWritten is (a :: ws)) ∨ (∃ is pre, OptsWritten is pre ∧
            a :: ws = pre ++ [lit "--trace-file"]) := by
          intro i hi
          rcases hw with ⟨is, h⟩ | ⟨is, pre, h, rfl⟩
          · exact .inl ⟨_, .word hi h⟩
          · exact .inr ⟨_, a :: pre, .word hi h, rfl⟩
        by_cases h1 : a = lit "--coverage-per-instance"
        · exact word .perInstance (by rw [h1]; rfl)
        by_cases h2 : a = lit "--trace"
        · exact word .trace (by rw [h2]; rfl)
        by_cases h3 : a = lit "--trace-flush"
        · exact word .flush (by rw [h3]; rfl)
        by_cases h5 : a = lit "--help"
        · exact word .help (by rw [h5]; rfl)
        by_cases h4 : a = lit "--trace-file"
        · subst h4
          cases ws with
          | nil => exact .inr ⟨[], [], .nil, rfl⟩
          | cons f ws =>
            rcases ih ws (by simp at hn; omega) with ⟨is, h⟩ | ⟨is, pre, h, rfl⟩
            · exact .inl ⟨_, .file h⟩
            · exact .inr ⟨_, _, .file h, rfl⟩
        · rcases hw with ⟨is, h⟩ | ⟨is, pre, h, rfl⟩
          · exact .inl ⟨_, .other ⟨h1, h2, h3, h4, h5⟩ h⟩
          · exact .inr ⟨_, a :: pre, .other ⟨h1, h2, h3, h4, h5⟩ h, rfl⟩
  rcases key _ ws (Nat.le_refl _) with h | ⟨is, pre, h, rfl⟩
  · exact .inl h
  · refine .inr ⟨is, pre, h, rfl, fun v => ?_⟩
    have opts : ∀ o, options v (pre ++ [lit "--trace-file"]) o = .exit ((is.findSome? (Stops v)).getD (-1)) := by
      induction h with
      | nil => intro o; rfl
      | @word i w is ws hi hw ih =>
        intro o
        rw [List.cons_append, options_cons]
        cases i with
        | perInstance =>
          injection hi with hi
          subst hi
          rw [if_pos rfl]
          by_cases hv : v.coverage = true
          · rw [if_pos hv, ih]
            simp [List.findSome?_cons, List.filterMap_cons, List.getLast?_cons, Stops, hv]
          · rw [if_neg hv]
            simp [List.findSome?_cons, List.filterMap_cons, List.getLast?_cons, Stops, hv]
        | trace =>
          injection hi with hi
          subst hi
          rw [if_neg (by decide), if_pos rfl]
          by_cases hv : v.trace = true
          · rw [if_pos hv, ih]
            simp [List.findSome?_cons, List.filterMap_cons, List.getLast?_cons, Stops, hv]
          · rw [if_neg hv]
            simp [List.findSome?_cons, List.filterMap_cons, List.getLast?_cons, Stops, hv]
        | flush =>
          injection hi with hi
          subst hi
          rw [if_neg (by decide), if_neg (by decide), if_pos rfl, ih]
          simp [List.findSome?_cons, List.filterMap_cons, List.getLast?_cons, Stops]
        | help =>
          injection hi with hi
          subst hi
          rw [if_neg (by decide), if_neg (by decide), if_neg (by decide), if_neg (by decide), if_pos rfl]
          simp [List.findSome?_cons, List.filterMap_cons, List.getLast?_cons, Stops]
        | file f => exact absurd hi (by simp [Item.word])
        | other a => exact absurd hi (by simp [Item.word])
      | @file f is ws hw ih =>
        intro o
        rw [List.cons_append, options_cons, if_neg (by decide), if_neg (by decide), if_neg (by decide), if_pos rfl]
        show options v (ws ++ [lit "--trace-file"]) _ = _
        rw [ih]
        simp [List.findSome?_cons, List.filterMap_cons, List.getLast?_cons, Stops]
      | @other a is ws ha hw ih =>
        intro o
        obtain ⟨h1, h2, h3, h4, h5⟩ := ha
        rw [List.cons_append, options_cons, if_neg h1, if_neg h2, if_neg h3, if_neg h4, if_neg h5, ih]
        simp [List.findSome?_cons, List.filterMap_cons, List.getLast?_cons, Stops]
    exact opts _

example : OptsWritten [.trace, .other (lit "+x"), .file (lit "--trace"), .flush] [lit "--trace", lit "+x", lit "--trace-file", lit "--trace",
    lit "--trace-flush"] :=
  .word rfl (.other (by unfold NoOpt; decide) (.file (.word rfl .nil)))

example : start ⟨true, false, .fst⟩ [lit "--trace", lit "+x"] = .run ⟨lit "dump.fst", true, false, false⟩ := by decide

/-- The program for Verilator opens a waveform file if and only if nothing stopped it and `--trace` was given; the file is that
of the last `--trace-file`. -/
theorem C133_opened (v : VBuild) (is : List Item) (ws : List Text) (h : OptsWritten is ws) (f : Text) :
    (start v ws).opened v = some f ↔ (∀ i ∈ is, Stops v i = none) ∧ Item.trace ∈ is ∧
      f = ((is.filterMap Item.name).getLast?).getD (defaultFile v.format) := by
  rw [C133_options v is ws h]
  cases hs : is.findSome? (Stops v) with
  | some c =>
    obtain ⟨i, hi, hc⟩ := List.exists_of_findSome?_eq_some hs
    simp only [Start.opened, reduceCtorEq, false_iff]
    intro hn
    rw [hn.1 i hi] at hc
    exact absurd hc (by simp)
  | none =>
    have hn := List.findSome?_eq_none_iff.1 hs
    simp only [Start.opened]
    by_cases ht : Item.trace ∈ is
    · have hv : v.trace = true := by
        have := hn _ ht
        by_cases hv : v.trace = true
        · exact hv
        · simp [Stops, hv] at this
      simp only [hv, ht, decide_true, Bool.and_self, if_true, Option.some.injEq, true_and]
      constructor
      · intro e; exact ⟨hn, e.symm⟩
      · intro e; exact e.2.symm
    · simp [ht]

example : (start ⟨true, false, .vcd⟩ [lit "+x"]).opened ⟨true, false, .vcd⟩ = none ∧
    (start ⟨true, false, .vcd⟩ [lit "--trace", lit "--trace-file", lit "a"]).opened ⟨true, false, .vcd⟩ = some (lit "a") := by decide

/-! ### The attached file -/

/-- With these simulators a file is attached if and only if `waves` was given to `test`, and the file lies in the test directory
(for a top level that does not start with a slash). -/
theorem C133_attached (t : Tool) (o : TestOpts) (name : Text) (htop : o.toplevel.head? ≠ some 47)
    (hname : (t = .ghdl ∧ name = o.toplevel ++ lit ".ghw") ∨ (t = .nvc ∧ name = o.toplevel ++ lit ".fst") ∨
      (t = .icarus ∧ name = o.toplevel ++ lit ".fst") ∨ (t = .verilator ∧ name = lit "dump.vcd") ∨ (t = .dsim ∧ name = lit "file.vcd")) :
    attached t o = if o.waves then some (o.testDir ++ lit "/" ++ name) else none := by
  have hh : ∀ e : Text, e.head? = some 46 → (o.toplevel ++ e).head? ≠ some 47 := by
    intro e he
    cases ht : o.toplevel with
    | nil => simp [he]
    | cons c r => rw [ht] at htop; simpa using htop
  unfold attached
  rcases hname with ⟨rfl, rfl⟩ | ⟨rfl, rfl⟩ | ⟨rfl, rfl⟩ | ⟨rfl, rfl⟩ | ⟨rfl, rfl⟩
  all_goals
    simp only [wavesFile, Option.map_some, joinPath]
    first
    | rw [if_neg (hh _ (by decide))]; rfl
    | rfl

example : attached .ghdl testEx = some (lit "/work/sim_build/dut.ghw") := by decide +kernel

/-- The waveform file that is attached to the results is the one the simulation writes. -/
def C133_attached_full : Prop :=
  ∀ (cfg : Cfg) (v : VBuild) (t : Tool) (b : BuildOpts) (ps : List (Text × Text)) (o : TestOpts) (cmds : List Command) (f : Text),
    cfg.cmdPrefix = [] → cfg.cmdSuffix = [] → o.testArgs = [] → o.plusargs = [] → b.waves = true → v.trace = true → b.toplevel = some o.toplevel →
    t = .ghdl ∨ t = .nvc ∨ t = .verilator ∨ t = .icarus →
    attached t o = some f → testCmds cfg t (some b) ps b.buildDir o = .ok cmds →
    ∃ cmd ∈ cmds, waveWritten v t b o.testDir cmd = some f

/-- Icarus Verilog writes into the build directory, but the file in the test directory is attached. -/
theorem C133_attached_counterexample : ¬ C133_attached_full := by
  intro hf
  obtain ⟨cmd, hm, h⟩ := hf cfgEx ⟨true, false, .vcd⟩ .icarus { buildEx with waves := true } []
    { testEx with testArgs := [], plusargs := [], testDir := lit "/work/test" } _ (lit "/work/test/dut.fst") rfl rfl rfl rfl rfl rfl rfl
    (by simp) (by decide +kernel) rfl
  rw [List.mem_singleton.1 hm] at h
  revert h
  decide +kernel

/-- With `--trace-fst` among the build arguments the program for Verilator writes `dump.fst`, but `dump.vcd` is attached. -/
theorem C133_fst_counterexample : ∃ cmds cmd, cmd ∈ cmds ∧
    testCmds cfgEx .verilator (some { buildEx with waves := true }) [] (lit "/work/sim_build") { testEx with testArgs := [] } = .ok cmds ∧
    waveWritten ⟨true, false, .fst⟩ .verilator buildEx testEx.testDir cmd = some (lit "/work/sim_build/dump.fst") ∧
    attached .verilator testEx = some (lit "/work/sim_build/dump.vcd") :=
  ⟨_, _, List.mem_singleton.2 rfl, rfl, by decide +kernel, by decide +kernel⟩

theorem waveArg_one {c : Nat} (r : Text) (h : c ≠ 45) : waveArg (c :: r) = none := by
  simp [waveArg, afterPrefix, lit, ofStr, List.isPrefixOf, Ne.symm h]
theorem waveArg_two {c : Nat} (r : Text) (h : c ≠ 45) : waveArg (45 :: c :: r) = none := by
  simp [waveArg, afterPrefix, lit, ofStr, List.isPrefixOf, Ne.symm h]
theorem waveArg_three {c : Nat} (r : Text) (h : c ≠ 119) : waveArg (45 :: 45 :: c :: r) = none := by
  simp [waveArg, afterPrefix, lit, ofStr, List.isPrefixOf, Ne.symm h]
theorem waveArg_four {c : Nat} (r : Text) (h : c ≠ 97) : waveArg (45 :: 45 :: 119 :: c :: r) = none := by
  simp [waveArg, afterPrefix, lit, ofStr, List.isPrefixOf, Ne.symm h]
theorem waveArg_nil : waveArg [] = none := rfl
theorem waveArg_noOption {a : Text} (h : NoOption a) : waveArg a = none := by
  cases a with
  | nil => rfl
  | cons c a => exact waveArg_one a (h c rfl).1

/-- GHDL and NVC write the file that is attached. Missing: see `C133_attached_counterexample`. -/
theorem C133_ghdl_nvc_partial (cfg : Cfg) (v : VBuild) (t : Tool) (b : BuildOpts) (ps : List (Text × Text)) (dir : Text) (o : TestOpts)
    (cmds : List Command) (f : Text) (ht : t = .ghdl ∨ t = .nvc) (htop : NoOption o.toplevel) (hdir : NoOption dir)
    (hn : ∀ a ∈ cfg.cmdPrefix ++ cfg.cmdSuffix ++ b.args.map (·.2) ++ o.elabArgs ++ o.testArgs ++ o.plusargs, ¬ lit "--wave=" <+: a)
    (ha : attached t o = some f) (hc : testCmds cfg t (some b) ps dir o = .ok cmds) :
    ∃ cmd ∈ cmds, waveWritten v t b o.testDir cmd = some f := by
  have nil : ∀ l : List Text, (∀ a ∈ l, ¬ lit "--wave=" <+: a) → l.filterMap waveArg = [] := fun l hl =>
    List.filterMap_eq_nil_iff.2 fun a ha => by
      unfold waveArg afterPrefix
      rw [if_neg fun e => hl a ha (List.isPrefixOf_iff_prefix.1 e)]
  have f1 := nil cfg.cmdPrefix fun a ha => hn a (by simp [ha])
  have f2 := nil cfg.cmdSuffix fun a ha => hn a (by simp [ha])
  have f3 := nil (allArgs b) fun a ha => hn a (by simp only [List.mem_append]; exact .inl (.inl (.inl (.inr ha))))
  have f4 := nil o.elabArgs fun a ha => hn a (by simp [ha])
  have f5 := nil o.testArgs fun a ha => hn a (by simp [ha])
  have f6 := nil o.plusargs fun a ha => hn a (by simp [ha])
  have f7 : (ps.map (paramOpt none t)).filterMap waveArg = [] := filterMap_map_none _ _ _ fun d => by
    rcases ht with rfl | rfl <;> simp [paramOpt, lit, ofStr, waveArg_two]
  have f8 := waveArg_noOption htop
  have f9 := waveArg_noOption hdir
  unfold attached at ha
  split at ha
  · rename_i hw
    rcases ht with rfl | rfl
    · simp only [testCmds] at hc
      split at hc
      · exact absurd hc (by simp)
      · split at hc
        · exact absurd hc (by simp)
        · rename_i r hr
          injection hc with hc
          subst hc
          refine ⟨_, List.mem_singleton.2 rfl, ?_⟩
          have f10 : r.filterMap waveArg = [] := by
            split at hr
            · split at hr
              · split at hr
                · injection hr with hr
                  subst hr
                  simp [lit, ofStr, waveArg_three]
                · exact absurd hr (by simp)
              · injection hr with hr
                subst hr
                rfl
            · injection hr with hr
              subst hr
              rfl
          have f11 : waveArg (lit "--wave=" ++ (o.toplevel ++ lit ".ghw")) = some (o.toplevel ++ lit ".ghw") := after_eq _ _
          have f12 : ∀ x, waveArg (lit "--work=" ++ x) = none ∧ waveArg (lit "--vpi=" ++ x) = none ∧ waveArg (lit "ghdl") = none ∧
            waveArg (lit "-r") = none := fun x => by simp [lit, ofStr, waveArg_one, waveArg_two, waveArg_three, waveArg_four]
          simp only [waveWritten, List.filterMap_append, f1, f2, f5, f6, f7, f8, f10, wavesFile, hw, List.filterMap_cons, List.filterMap_nil,
            (f12 _).1, (f12 _).2.1, (f12 []).2.2.1, (f12 []).2.2.2, Bool.true_or, if_true, f11]
          exact ha
    · simp only [testCmds] at hc
      injection hc with hc
      subst hc
      refine ⟨_, List.mem_singleton.2 rfl, ?_⟩
      have f11 : waveArg (lit "--wave=" ++ (o.toplevel ++ lit ".fst")) = some (o.toplevel ++ lit ".fst") := after_eq _ _
      have f12 : ∀ x y, waveArg (lit "--work=" ++ x ++ [58] ++ dir ++ [47] ++ y) = none ∧ waveArg (lit "--load=" ++ x) = none ∧ waveArg (lit "nvc") = none ∧
        waveArg (lit "-r") = none ∧ waveArg (lit "-L") = none ∧ waveArg (lit "-e") = none ∧ waveArg (lit "--no-save") = none ∧
        waveArg (lit "--jit") = none := fun x y => by simp [lit, ofStr, waveArg_one, waveArg_two, waveArg_three, waveArg_four]
      obtain ⟨_, _, k3, k4, k5, k6, k7, k8⟩ := f12 [] []
      simp only [waveWritten, List.filterMap_append, f1, f2, f3, f4, f5, f6, f7, f8, f9, wavesFile, hw, List.filterMap_cons, List.filterMap_nil,
        (f12 _ _).1, (f12 _ []).2.1, k3, k4, k5, k6, k7, k8, Bool.true_or, if_true, f11]
      exact ha
  · exact absurd ha (by simp)

theorem written_plain (ws : List Text) (h : ∀ a ∈ ws, NoOpt a) : OptsWritten (ws.map .other) ws := by
  induction ws with
  | nil => exact .nil
  | cons a ws ih => exact .other (h a List.mem_cons_self) (ih fun x hx => h x (List.mem_cons_of_mem _ hx))

/-- The program for Verilator writes the file that is attached if the design was built for VCD files and the arguments of `test` are
none of its options; if the design was not built for waveforms, the test fails. Missing: other formats and files. -/
theorem C133_verilator_partial (cfg : Cfg) (v : VBuild) (b : BuildOpts) (ps : List (Text × Text)) (dir : Text) (o : TestOpts)
    (cmds : List Command) (f : Text) (hp : cfg.cmdPrefix = []) (hs : cfg.cmdSuffix = [])
    (hn : ∀ a ∈ o.testArgs ++ o.plusargs, NoOpt a) (hv : v.format = .vcd)
    (ha : attached .verilator o = some f) (hc : testCmds cfg .verilator (some b) ps dir o = .ok cmds) :
    ∃ cmd ∈ cmds, (v.trace = true → waveWritten v .verilator b o.testDir cmd = some f) ∧
      (v.trace = false → start v (cmd.drop 1) = .exit (-1)) := by
  unfold attached at ha
  split at ha
  · rename_i hw
    simp only [testCmds] at hc
    split at hc
    · exact absurd hc (by simp)
    · injection hc with hc
      subst hc
      refine ⟨_, List.mem_singleton.2 rfl, ?_⟩
      have hwr : OptsWritten (.trace :: (o.testArgs ++ o.plusargs).map .other) (lit "--trace" :: (o.testArgs ++ o.plusargs)) :=
        .word rfl (written_plain _ hn)
      have hst : ((o.testArgs ++ o.plusargs).map Item.other).findSome? (Stops v) = none := by
        rw [List.findSome?_eq_none_iff]
        intro x hx
        obtain ⟨a, _, rfl⟩ := List.mem_map.1 hx
        rfl
      have hnm : ((o.testArgs ++ o.plusargs).map Item.other).filterMap Item.name = [] := filterMap_map_none _ _ _ fun a => rfl
      have e : (cfg.cmdPrefix ++ [dir ++ [47] ++ o.toplevel] ++ (if (o.waves || o.gui) = true then [lit "--trace"] else []) ++
          o.testArgs ++ o.plusargs ++ cfg.cmdSuffix).drop 1 = lit "--trace" :: (o.testArgs ++ o.plusargs) := by
        simp [hp, hs, hw]
      refine ⟨fun hv' => ?_, fun hv' => ?_⟩
      · simp only [waveWritten, e]
        rw [C133_options v _ _ hwr, List.findSome?_cons_of_isNone (by simp [Stops, hv']), hst]
        simp only [Start.opened, hv', List.filterMap_cons_none (f := Item.name) (a := Item.trace) rfl, hnm, List.mem_cons, true_or, decide_true,
          Bool.true_and, if_true, hv]
        exact ha
      · rw [e, C133_options v _ _ hwr, List.findSome?_cons]
        simp [Stops, hv']
  · exact absurd ha (by simp)

/-- Icarus Verilog writes the file that is attached if the test runs in the build directory. Missing: other test directories. -/
theorem C133_icarus_partial (cfg : Cfg) (v : VBuild) (b : BuildOpts) (ps : List (Text × Text)) (o : TestOpts)
    (cmds : List Command) (f : Text) (hw : b.waves = true) (htop : b.toplevel = some o.toplevel) (htop' : o.toplevel.head? ≠ some 47)
    (hdir : o.testDir = b.buildDir) (habs : b.buildDir.head? = some 47)
    (hn : ∀ a ∈ cfg.cmdPrefix ++ [cfg.libEntry "vpi" "icarus"] ++ o.testArgs ++ o.plusargs ++ cfg.cmdSuffix, ¬ lit "+dumpfile_path=" <+: a)
    (ha : attached .icarus o = some f) (hc : testCmds cfg .icarus (some b) ps b.buildDir o = .ok cmds) :
    ∃ cmd ∈ cmds, waveWritten v .icarus b o.testDir cmd = some f := by
  unfold attached at ha
  split at ha
  · rename_i how
    simp only [testCmds] at hc
    split at hc
    · exact absurd hc (by simp)
    · injection hc with hc
      subst hc
      refine ⟨_, List.mem_singleton.2 rfl, ?_⟩
      obtain ⟨bd, hbd⟩ : ∃ r, b.buildDir = 47 :: r := by
        cases hb : b.buildDir with
        | nil => rw [hb] at habs; simp at habs
        | cons c r => rw [hb] at habs; simp at habs; exact ⟨r, by rw [habs]⟩
      have find : ∀ l : List Text, (∀ a ∈ l, ¬ lit "+dumpfile_path=" <+: a) → l.find? (fun a => (lit "+dumpfile_path=").isPrefixOf a) = none := by
        intro l hl
        rw [List.find?_eq_none]
        intro a ha e
        exact hl a ha (List.isPrefixOf_iff_prefix.1 e)
      simp only [waveWritten, how, Bool.true_or, if_true]
      rw [if_pos (by simp), icarusDump, if_pos hw, find]
      · simp only [Option.map_some, htop, Option.getD_some]
        simp only [wavesFile, Option.map_some, joinPath] at ha
        have h1 : (o.toplevel ++ lit ".fst").head? ≠ some 47 := by
          cases ht : o.toplevel with
          | nil => simp [lit, ofStr]
          | cons c r => rw [ht] at htop'; simpa using htop'
        rw [if_neg h1, hdir] at ha
        rw [joinPath, if_pos (by simp [hbd]), ← ha]
        simp
      · intro a ha
        simp only [List.mem_append, List.mem_cons, List.not_mem_nil, or_false] at ha
        have lits : ∀ s : Text, s.head? ≠ some 43 → ¬ lit "+dumpfile_path=" <+: s := by
          intro s hs hp
          obtain ⟨r, rfl⟩ := hp
          simp [lit, ofStr] at hs
        rcases ha with (((((ha | (rfl | rfl | rfl)) | ha) | rfl) | ha) | rfl) | ha
        · exact hn a (by simp [ha])
        · exact lits _ (by decide)
        · exact lits _ (by decide)
        · exact hn _ (by simp)
        · exact hn a (by simp [ha])
        · exact lits _ (by simp [hbd])
        · exact hn a (by simp [ha])
        · exact lits _ (by decide)
        · exact hn a (by simp [ha])
  · exact absurd ha (by simp)

example : ∃ cmds f, attached .nvc testEx = some f ∧ testCmds cfgEx .nvc (some buildEx) [] (lit "/work/sim_build") testEx = .ok cmds ∧
    waveWritten ⟨true, false, .vcd⟩ .nvc buildEx testEx.testDir (cmds.headD []) = some f ∧ f = lit "/work/sim_build/dut.fst" :=
  ⟨_, _, rfl, rfl, by decide +kernel, by decide +kernel⟩

example : ∃ cmds f, attached .icarus testEx = some f ∧
    testCmds cfgEx .icarus (some { buildEx with waves := true }) [] (lit "/work/sim_build") testEx = .ok cmds ∧
    ∀ a ∈ cfgEx.cmdPrefix ++ [cfgEx.libEntry "vpi" "icarus"] ++ testEx.testArgs ++ testEx.plusargs ++ cfgEx.cmdSuffix, ¬ lit "+dumpfile_path=" <+: a :=
  ⟨_, _, rfl, rfl, by decide +kernel⟩

example : ∃ cmds, testCmds cfgEx .verilator (some buildEx) [] (lit "/work/sim_build") testEx = .ok cmds ∧
    ∀ a ∈ testEx.testArgs ++ testEx.plusargs, NoOpt a :=
  ⟨_, rfl, by unfold NoOpt; decide +kernel⟩

end Verif
