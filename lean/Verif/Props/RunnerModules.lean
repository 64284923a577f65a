import Verif.Spec.RunnerModules
/-! # C178: the modules of a test that runs a simulation -/
namespace Verif
open RunnerModules
open RunnerModules.Spec (Positional Simple Nearest PyFile)

namespace RunnerModulesL

theorem takeWhile_py (name : PyStr) (h : '.' ∉ name) : (name ++ ".py".toList).takeWhile (· != '.') = name := by
  induction name with
  | nil => rfl
  | cons c name ih =>
    have h1 : c ≠ '.' := fun e => h (by simp [e])
    have h2 : '.' ∉ name := fun e => h (by simp [e])
    simpa [h1] using ih h2

theorem stem_py (name : PyStr) (h : name ≠ []) : stem (name ++ ".py".toList) = name := by
  have e : (name ++ ".py".toList).reverse = 'y' :: 'p' :: '.' :: name.reverse := by simp
  unfold stem
  rw [e]
  simp [h]

theorem markRunner_positional {u : Use} (h : Positional u) : markRunner u = .ok u.args := by
  obtain ⟨args, kw⟩ := u
  obtain ⟨h1, h2⟩ := h
  cases args with
  | nil => simp_all [markRunner]
  | cons m ms =>
    have : m ≠ [] := h2 m (by simp)
    simp_all [markRunner]

theorem applyOwn_positional (tm : List PyStr) (own : List Use) (hl : own.length ≤ 1) (h : ∀ u ∈ own, Positional u) :
    applyOwn tm own = .ok (match own with | [] => tm | u :: _ => u.args) := by
  cases own with
  | nil => rfl
  | cons u us =>
    cases us with
    | nil => rw [applyOwn, markRunner_positional (h u (by simp))]; rfl
    | cons v vs => simp at hl

theorem apply_ok (nodes : Nodes) (h : Simple nodes) : ∃ tm, applyMarkers nodes = .ok tm := by
  induction nodes with
  | nil => exact ⟨_, rfl⟩
  | cons own parents ih =>
    obtain ⟨tm, e⟩ := ih fun o ho => h o (by simp [ho])
    have := h own (by simp)
    exact ⟨_, by rw [applyMarkers, e]; exact applyOwn_positional tm own this.1 this.2⟩

theorem apply_below (below above : Nodes) (u : Use) (hb : ∀ own ∈ below, own = []) (h : Simple (below ++ [u] :: above)) :
    applyMarkers (below ++ [u] :: above) = .ok u.args := by
  induction below with
  | nil =>
    obtain ⟨tm, e⟩ := apply_ok above fun o ho => h o (by simp [ho])
    have := h [u] (by simp)
    rw [List.nil_append, applyMarkers, e]
    exact applyOwn_positional tm [u] this.1 this.2
  | cons own below ih =>
    have e := ih (fun o ho => hb o (by simp [ho])) fun o ho => h o (by simp [ho])
    have h0 := hb own (by simp)
    subst h0
    rw [List.cons_append, applyMarkers, e]
    rfl

theorem apply_empty (nodes : Nodes) (h : Simple nodes) (he : ∀ own ∈ nodes, ∀ u ∈ own, u.args = []) :
    applyMarkers nodes = .ok [] := by
  induction nodes with
  | nil => rfl
  | cons own parents ih =>
    have e := ih (fun o ho => h o (by simp [ho])) fun o ho => he o (by simp [ho])
    have := h own (by simp)
    rw [applyMarkers, e]
    refine (applyOwn_positional [] own this.1 this.2).trans ?_
    cases own with
    | nil => rfl
    | cons u us => simp [he (u :: us) (by simp) u (by simp)]

theorem firstArgs_none (us : List Use) (h : ∀ u ∈ us, u.args = []) : firstArgs us = none := by
  induction us with
  | nil => rfl
  | cons u us ih => rw [firstArgs, if_pos (h u (by simp)), ih fun v hv => h v (by simp [hv])]

theorem firstArgs_some (us : List Use) (a : List PyStr) (h : firstArgs us = some a) :
    ∃ b u c, us = b ++ u :: c ∧ u.args = a ∧ a ≠ [] ∧ ∀ v ∈ b, v.args = [] := by
  induction us with
  | nil => cases h
  | cons u us ih =>
    unfold firstArgs at h
    split at h
    · rename_i hu
      obtain ⟨b, v, c, e, h1, h2, h3⟩ := ih h
      refine ⟨u :: b, v, c, by simp [e], h1, h2, ?_⟩
      intro w hw
      rcases List.mem_cons.1 hw with rfl | hw
      · exact hu
      · exact h3 w hw
    · rename_i hu
      cases h
      exact ⟨[], u, us, rfl, rfl, hu, by simp⟩

theorem flatten_below (below : Nodes) (hb : ∀ own ∈ below, own = []) : below.flatten = [] := by
  induction below with
  | nil => rfl
  | cons own below ih => simp [hb own (by simp), ih fun o ho => hb o (by simp [ho])]

theorem applyOwn_ok (tm : List PyStr) (own : List Use) :
    (∃ r, applyOwn tm own = .ok r) ↔ ∀ u ∈ own, u.kw = none ∨ u.args = [] := by
  induction own generalizing tm with
  | nil => simp [applyOwn]
  | cons u us ih =>
    obtain ⟨args, kw⟩ := u
    cases kw with
    | none =>
      cases args with
      | nil => simpa [applyOwn, markRunner, bind, Except.bind] using ih []
      | cons a as =>
        have := ih (if a = [] then as else a :: as)
        simpa [applyOwn, markRunner, bind, Except.bind] using this
    | some m =>
      cases args with
      | nil =>
        have := ih (if m = [] then [] else [m])
        simpa [applyOwn, markRunner, bind, Except.bind] using this
      | cons a as => simp [applyOwn, markRunner, bind, Except.bind]

theorem applyMarkers_ok (nodes : Nodes) :
    (∃ r, applyMarkers nodes = .ok r) ↔ ∀ own ∈ nodes, ∀ u ∈ own, u.kw = none ∨ u.args = [] := by
  induction nodes with
  | nil => simp [applyMarkers]
  | cons own parents ih =>
    simp only [applyMarkers, List.mem_cons, forall_eq_or_imp]
    rw [← ih]
    cases e : applyMarkers parents with
    | error x => simp [bind, Except.bind]
    | ok tm => simp [bind, Except.bind, applyOwn_ok]

theorem applyOwn_err (tm : List PyStr) (own : List Use) (x : PyErr) (h : applyOwn tm own = .error x) : x = .typeError := by
  induction own generalizing tm with
  | nil => cases h
  | cons u us ih =>
    obtain ⟨args, kw⟩ := u
    cases kw <;> cases args <;> simp [applyOwn, markRunner, bind, Except.bind] at h
    · exact ih _ h
    · exact ih _ h
    · exact ih _ h
    · exact h.symm

theorem applyMarkers_err (nodes : Nodes) (x : PyErr) (h : applyMarkers nodes = .error x) : x = .typeError := by
  induction nodes with
  | nil => cases h
  | cons own parents ih =>
    rw [applyMarkers] at h
    cases e : applyMarkers parents with
    | error y => rw [e] at h; cases h; exact ih e
    | ok tm => rw [e] at h; exact applyOwn_err tm own x h

end RunnerModulesL
open RunnerModulesL

/-- C178, in full: the modules whose tests pytest collects for a runner are the ones that its simulation runs. -/
def C178_modules_full : Prop := ∀ (nodes : Nodes) (file name : PyStr), PyFile file name → ∀ ms,
  hdlModules nodes file = .ok ms → collectModules nodes file = ms

/-- `test_dut.py`. -/
def exFile : PyStr := "test_dut.py".toList

/-- C178: they differ if the module is given by its name `test_module`, if a class with a module has a function with a
marker without, and if a function has two markers. -/
theorem C178_modules_counterexample : ¬ C178_modules_full ∧
    (hdlModules [[⟨[], some "tb".toList⟩]] exFile = .ok ["tb".toList] ∧
      collectModules [[⟨[], some "tb".toList⟩]] exFile = ["test_dut".toList]) ∧
    (hdlModules [[⟨[], none⟩], [⟨["tb".toList], none⟩]] exFile = .ok ["test_dut".toList] ∧
      collectModules [[⟨[], none⟩], [⟨["tb".toList], none⟩]] exFile = ["tb".toList]) ∧
    (hdlModules [[⟨["a".toList], none⟩, ⟨["b".toList], none⟩]] exFile = .ok ["b".toList] ∧
      collectModules [[⟨["a".toList], none⟩, ⟨["b".toList], none⟩]] exFile = ["a".toList]) := by
  refine ⟨fun h => ?_, by decide +kernel, by decide +kernel, by decide +kernel⟩
  have := h [[⟨[], some "tb".toList⟩]] exFile "test_dut".toList (by unfold PyFile; decide +kernel) ["tb".toList] (by decide +kernel)
  exact absurd this (by decide +kernel)

/-- C178, partial (the full claim is false of the code): with at most one marker at each node, all with modules given by
position, the collected modules are the ones of the simulation: those of the nearest marker if it has modules, and the
runner's own if no marker has. -/
theorem C178_modules_partial (nodes : Nodes) (file name : PyStr) (hf : PyFile file name) (hs : Simple nodes) :
    (∀ u, Nearest nodes u → u.args ≠ [] →
      hdlModules nodes file = .ok u.args ∧ collectModules nodes file = u.args) ∧
    ((∀ own ∈ nodes, ∀ u ∈ own, u.args = []) →
      hdlModules nodes file = .ok [name] ∧ collectModules nodes file = [name]) := by
  obtain ⟨rfl, hn, hd⟩ := hf
  constructor
  · rintro u ⟨below, above, rfl, hb⟩ hu
    constructor
    · unfold hdlModules
      rw [apply_below below above u hb hs]
      show Except.ok _ = _
      rw [if_neg hu]
    · rw [collectModules, List.flatten_append, flatten_below below hb]
      simp [firstArgs, hu]
  · intro he
    constructor
    · unfold hdlModules
      rw [apply_empty nodes hs he]
      show Except.ok _ = _
      rw [if_pos rfl, takeWhile_py name hd]
    · rw [collectModules, firstArgs_none, stem_py name hn]
      · rfl
      · intro u hu
        obtain ⟨own, ho, hu⟩ := List.mem_flatten.1 hu
        exact he own ho u hu

/-- A function with a marker in a class with a marker. -/
def exNodes : Nodes := [[⟨["a".toList, "b".toList], none⟩], [⟨["c".toList], none⟩], []]

example : Simple exNodes ∧ Nearest exNodes ⟨["a".toList, "b".toList], none⟩ ∧ PyFile exFile "test_dut".toList ∧
    collectModules exNodes exFile = ["a".toList, "b".toList] := by
  refine ⟨?_, ⟨[], _, rfl, by simp⟩, by unfold PyFile; decide +kernel, by decide +kernel⟩
  unfold Simple Positional
  decide +kernel

/-- C178: the simulation of a test fails with TypeError if, and only if, one of its markers has a module by name and others
by position; nothing else makes it fail. -/
theorem C178_error (nodes : Nodes) (file : PyStr) :
    hdlModules nodes file = .error .typeError ↔ ∃ own ∈ nodes, ∃ u ∈ own, u.kw ≠ none ∧ u.args ≠ [] := by
  have hok := applyMarkers_ok nodes
  unfold hdlModules
  cases e : applyMarkers nodes with
  | ok tm =>
    have := hok.1 ⟨tm, e⟩
    constructor
    · intro h; cases h
    · rintro ⟨own, ho, u, hu, h1, h2⟩
      rcases this own ho u hu with h | h
      · exact absurd h h1
      · exact absurd h h2
  | error x =>
    have hx := applyMarkers_err nodes x e
    subst hx
    refine ⟨fun _ => ?_, fun _ => rfl⟩
    by_cases h : ∃ own ∈ nodes, ∃ u ∈ own, u.kw ≠ none ∧ u.args ≠ []
    · exact h
    · exfalso
      have : ∀ own ∈ nodes, ∀ u ∈ own, u.kw = none ∨ u.args = [] := by
        intro own ho u hu
        by_cases h1 : u.kw = none
        · exact .inl h1
        · by_cases h2 : u.args = []
          · exact .inr h2
          · exact absurd ⟨own, ho, u, hu, h1, h2⟩ h
      obtain ⟨r, hr⟩ := hok.2 this
      rw [e] at hr; cases hr

example : hdlModules [[⟨["b".toList], some "a".toList⟩]] exFile = .error .typeError := by decide +kernel

/-- C178, in full: the documented function `cocotb_runner` makes a marker for the modules it is given. -/
def C178_function_full : Prop := ∀ (ms : List PyStr) (file name : PyStr), PyFile file name → ms ≠ [] → (∀ m ∈ ms, m ≠ []) →
  hdlModules [[made ms]] file = .ok ms ∧ collectModules [[made ms]] file = ms

/-- C178: it never does: with one module the simulation runs it and pytest collects the tests of the runner's own module;
with more the test fails, and pytest collects the tests of all but the first. -/
theorem C178_function_counterexample : ¬ C178_function_full ∧
    (∀ (m file name : PyStr), PyFile file name → m ≠ [] →
      hdlModules [[made [m]]] file = .ok [m] ∧ collectModules [[made [m]]] file = [name]) ∧
    ∀ (m : PyStr) (ms : List PyStr) (file : PyStr), ms ≠ [] →
      hdlModules [[made (m :: ms)]] file = .error .typeError ∧ collectModules [[made (m :: ms)]] file = ms := by
  refine ⟨fun h => ?_, ?_, ?_⟩
  · have := (h ["a".toList, "b".toList] exFile "test_dut".toList (by unfold PyFile; decide +kernel) (by decide) (by decide)).1
    exact absurd this (by decide +kernel)
  · rintro m file name ⟨rfl, hn, hd⟩ hm
    constructor
    · simp [hdlModules, made, applyMarkers, applyOwn, markRunner, hm, bind, Except.bind, pure, Except.pure]
    · simp only [collectModules, made, List.flatten_cons, List.flatten_nil, List.append_nil, firstArgs, if_true, Option.getD_none,
        stem_py name hn]
  · intro m ms file hms
    constructor
    · rw [C178_error]
      exact ⟨[made (m :: ms)], by simp, made (m :: ms), by simp, by simp [made], hms⟩
    · simp [collectModules, made, firstArgs, hms]

/-- C178, in full: the tests collected for a module are those of the file that is run in the simulation, and a module of a
directory next to the runner is found there. -/
def C178_file_full : Prop := ∀ (w : World) (m : PyStr), collectFile w m = simFile w m

/-- C178: a file next to the runner hides the module that the simulation imports. -/
theorem C178_file_counterexample : ¬ C178_file_full := by
  intro h
  have := h { dir := "t".toList, beside := fun f => f == "tb.py".toList, imported := fun _ => some "lib/tb.py".toList } "tb".toList
  exact absurd this (by decide +kernel)

/-- C178, partial (the full claim is false of the code): the files are the same if there is no file of the module's name
next to the runner, or the import finds that one. Dots in names of modules become colons, so that modules of packages are
always found by import, as in the simulation, unless a file has a colon in its name. -/
theorem C178_file_partial (w : World) (m : PyStr) :
    (w.beside (besideName m) = false ∨ w.imported m = some (w.dir ++ '/' :: besideName m) → collectFile w m = simFile w m) ∧
    ('.' ∉ m → besideName m = m ++ ".py".toList) ∧
    ('.' ∈ m → (∀ f, w.beside f = true → ':' ∉ f) → collectFile w m = simFile w m) := by
  have hfree : w.beside (besideName m) = false → collectFile w m = simFile w m := by
    intro h; simp [collectFile, simFile, h]
  refine ⟨?_, ?_, ?_⟩
  · rintro (h | h)
    · exact hfree h
    · unfold collectFile simFile
      split
      · exact h.symm
      · rfl
  · intro h
    unfold besideName
    congr 1
    rw [List.map_congr_left (g := id)]
    · simp
    · intro c hc
      have : c ≠ '.' := fun e => h (e ▸ hc)
      simp [this]
  · intro h hc
    apply hfree
    cases e : w.beside (besideName m) with
    | false => rfl
    | true =>
      refine absurd ?_ (hc _ e)
      unfold besideName
      exact List.mem_append.2 (.inl (List.mem_map.2 ⟨'.', h, by simp⟩))

example : besideName "pkg.tb".toList = "pkg:tb.py".toList := by decide +kernel

end Verif
