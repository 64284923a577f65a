import Verif.Spec.SimChoice
/-! # C176, C177: the simulator that pytest uses; markers -/
namespace Verif
open SimChoice
open SimChoice.Spec (preference all Preferred markers Identifier)

namespace SimChoiceL

theorem firstFound_some (path : PyStr → Bool) (l : List (PyStr × PyStr)) (s : PyStr) (h : firstFound path l = some s) :
    ∃ before command after, l = before ++ (command, s) :: after ∧ path command = true ∧ ∀ p ∈ before, path p.1 = false := by
  induction l with
  | nil => cases h
  | cons p rest ih =>
    obtain ⟨command, name⟩ := p
    unfold firstFound at h
    split at h
    · rename_i hp
      cases h
      exact ⟨[], command, rest, rfl, hp, by simp⟩
    · rename_i hp
      obtain ⟨b, c, a, e, hc, hb⟩ := ih h
      refine ⟨(command, name) :: b, c, a, by simp [e], hc, ?_⟩
      intro q hq
      rcases List.mem_cons.1 hq with rfl | hq
      · simpa using hp
      · exact hb q hq

theorem firstFound_none (path : PyStr → Bool) (l : List (PyStr × PyStr)) :
    firstFound path l = none ↔ ∀ p ∈ l, path p.1 = false := by
  induction l with
  | nil => simp [firstFound]
  | cons p rest ih =>
    obtain ⟨command, name⟩ := p
    unfold firstFound
    split <;> simp_all

theorem table : simulators = preference.map fun p => (p.2.toList, p.1.toList) := by decide +kernel

theorem table_all : supported.map (·.1) = all.map (·.1.toList) := by decide +kernel

theorem preferred_iff (path : PyStr → Bool) (s : PyStr) : firstFound path simulators = some s → Preferred path s := by
  intro h
  obtain ⟨b, c, a, e, hc, hb⟩ := firstFound_some _ _ _ h
  rw [table] at e
  obtain ⟨b', r, e1, e2, e3⟩ := List.map_eq_append_iff.1 e
  obtain ⟨p, a', e4, e5, e6⟩ := List.map_eq_cons_iff.1 e3
  obtain ⟨name, command⟩ := p
  simp only [Prod.mk.injEq] at e5
  refine ⟨b', name, command, a', by rw [e1, e4], e5.2.symm, by rw [e5.1]; exact hc, ?_⟩
  intro p hp
  exact hb (p.2.toList, p.1.toList) (by rw [← e2]; exact List.mem_map.2 ⟨p, hp, rfl⟩)

/-- Every preferred name has a runner that needs the same command, but for Verilator. -/
theorem runners : ∀ p ∈ preference, ∃ c, supported.lookup p.1.toList = some c ∧
    (c.needs = some p.2.toList ∨ (c.needs = none ∧ c.needsToBuild = some p.2.toList)) ∧
    (c.needsToBuild = none ∨ c.needsToBuild = some p.2.toList) ∧ simulatorName c = p.1.toList := by
  intro p hp
  simp only [preference, List.mem_cons, List.not_mem_nil, or_false] at hp
  rcases hp with rfl | rfl | rfl | rfl | rfl | rfl | rfl | rfl
  · exact ⟨.Verilator, by decide +kernel⟩
  · exact ⟨.Nvc, by decide +kernel⟩
  · exact ⟨.Ghdl, by decide +kernel⟩
  · exact ⟨.Icarus, by decide +kernel⟩
  · exact ⟨.Xcelium, by decide +kernel⟩
  · exact ⟨.Vcs, by decide +kernel⟩
  · exact ⟨.Questa, by decide +kernel⟩
  · exact ⟨.Riviera, by decide +kernel⟩

theorem preferred_mem {path : PyStr → Bool} {s : PyStr} (h : Preferred path s) :
    ∃ p ∈ preference, s = p.1.toList ∧ path p.2.toList = true := by
  obtain ⟨b, n, c, a, e, hs, hp, _⟩ := h
  exact ⟨(n, c), by rw [e]; simp, hs, hp⟩

theorem lookup_all (p : String × String) (h : p ∈ all) : ∃ c, supported.lookup p.1.toList = some c ∧
    (p.1 ≠ "verilator" → c.needs = some p.2.toList ∧ c.needsToBuild = none) ∧
    (p.1 = "verilator" → c.needs = none ∧ c.needsToBuild = some p.2.toList) := by
  simp only [all, List.mem_cons, List.not_mem_nil, or_false] at h
  rcases h with rfl | rfl | rfl | rfl | rfl | rfl | rfl | rfl | rfl | rfl | rfl
  · exact ⟨.Icarus, by decide +kernel⟩
  · exact ⟨.Questa, by decide +kernel⟩
  · exact ⟨.QuestaQIS, by decide +kernel⟩
  · exact ⟨.Ghdl, by decide +kernel⟩
  · exact ⟨.Riviera, by decide +kernel⟩
  · exact ⟨.ActiveHDL, by decide +kernel⟩
  · exact ⟨.Verilator, by decide +kernel⟩
  · exact ⟨.Xcelium, by decide +kernel⟩
  · exact ⟨.Nvc, by decide +kernel⟩
  · exact ⟨.Vcs, by decide +kernel⟩
  · exact ⟨.Dsim, by decide +kernel⟩

theorem lookup_none (s : PyStr) (h : ∀ p ∈ all, s ≠ p.1.toList) : supported.lookup s = none := by
  have : ∀ (l : List (PyStr × Cls)), (∀ p ∈ l, s ≠ p.1) → l.lookup s = none := by
    intro l
    induction l with
    | nil => simp
    | cons p l ih =>
      intro hl
      obtain ⟨k, v⟩ := p
      have hne : (s == k) = false := by simpa using hl (k, v) (by simp)
      rw [List.lookup_cons, hne]
      exact ih fun q hq => hl q (by simp [hq])
  apply this
  intro p hp e
  have : p.1 ∈ supported.map (·.1) := List.mem_map.2 ⟨p, hp, rfl⟩
  rw [table_all] at this
  obtain ⟨q, hq, e2⟩ := List.mem_map.1 this
  exact h q hq (by rw [e, e2])

theorem not_space_of_ident {c : Char} (h : c.isAlphanum = true ∨ c = '_') : isSpace c = false ∧ c ≠ ':' ∧ c ≠ '(' := by
  rcases h with h | rfl
  · refine ⟨?_, ?_, ?_⟩
    · cases hs : isSpace c with
      | false => rfl
      | true =>
        simp only [isSpace, Bool.or_eq_true, beq_iff_eq] at hs
        rcases hs with ((((rfl | rfl) | rfl) | rfl) | rfl) | rfl <;> revert h <;> decide
    · rintro rfl; revert h; decide
    · rintro rfl; revert h; decide
  · decide

theorem takeWhile_app (f : Char → Bool) (a b : PyStr) (x : Char) (ha : ∀ c ∈ a, f c = true) (hx : f x = false) :
    (a ++ x :: b).takeWhile f = a := by
  induction a with
  | nil => simp [hx]
  | cons y a ih =>
    have := ha y (by simp)
    simp [this, ih fun c hc => ha c (by simp [hc])]

theorem dropWhile_none (f : Char → Bool) (a : PyStr) (ha : ∀ c ∈ a, f c = false) : a.dropWhile f = a := by
  cases a with
  | nil => rfl
  | cons x a => simp [ha x (by simp)]

theorem strip_ident (a : PyStr) (ha : ∀ c ∈ a, isSpace c = false) : strip a = a := by
  unfold strip rstrip
  rw [dropWhile_none _ a ha, dropWhile_none _ a.reverse (by simpa using ha), List.reverse_reverse]

theorem rstrip_prefix (a b : PyStr) (x : Char) (hx : isSpace x = false) : ∃ b', rstrip (a ++ x :: b) = a ++ x :: b' := by
  unfold rstrip
  rw [List.reverse_append, List.reverse_cons]
  have : ∀ l : PyStr, ∃ l', (l ++ [x] ++ a.reverse).dropWhile isSpace = l' ++ [x] ++ a.reverse := by
    intro l
    induction l with
    | nil => exact ⟨[], by simp [hx]⟩
    | cons y l ih =>
      cases hy : isSpace y with
      | false => exact ⟨y :: l, by simp [hy]⟩
      | true =>
        obtain ⟨l', e⟩ := ih
        exact ⟨l', by simpa [hy] using e⟩
  obtain ⟨l', e⟩ := this b.reverse
  exact ⟨l'.reverse, by rw [e]; simp⟩

theorem takeWhile_prefix (f : Char → Bool) (a b : PyStr) (ha : ∀ c ∈ a, f c = true) : ∃ b', (a ++ b).takeWhile f = a ++ b' ∧
    b' = b.takeWhile f := by
  induction a with
  | nil => exact ⟨_, rfl, rfl⟩
  | cons y a ih =>
    obtain ⟨b', e, e2⟩ := ih fun c hc => ha c (by simp [hc])
    exact ⟨b', by simp [ha y (by simp), e], e2⟩

theorem registered_description (m : Marker) (h : Identifier m.name) : registeredName (description m) = m.name := by
  have hid := fun c hc => not_space_of_ident (h.2 c hc)
  unfold description
  rw [List.append_assoc, List.append_assoc, List.cons_append]
  obtain ⟨b', e⟩ := rstrip_prefix m.name (commaJoin (argTexts [] m.params) ++ ("): ".toList ++ m.doc)) '(' (by decide)
  rw [e]
  unfold registeredName
  obtain ⟨b'', e2, e3⟩ := takeWhile_prefix (· != ':') m.name ('(' :: b') (fun c hc => by simpa using (hid c hc).2.1)
  rw [e2, e3]
  have : List.takeWhile (fun x => x != ':') ('(' :: b') = '(' :: List.takeWhile (fun x => x != ':') b' := by simp
  rw [this, takeWhile_app _ _ _ _ (fun c hc => by simpa using (hid c hc).2.2) (by simp)]
  exact strip_ident _ fun c hc => (hid c hc).1

theorem registered_ident : ∀ n ∈ registered, Identifier n := by
  unfold Identifier; decide +kernel

end SimChoiceL
open SimChoiceL

/-- C176: with `auto` or nothing the preferred one of the installed simulators is used, its runner is made and its build
starts, and `hdl.simulator` is its name. -/
theorem C176_auto (path : PyStr → Bool) (option : PyStr) (ho : option = [] ∨ option = "auto".toList)
    (hi : ∃ p ∈ preference, path p.2.toList = true) :
    ∃ c, Preferred path (getSimulator path option) ∧ makeRunner path option = .runner c ∧ canBuild path c = true ∧
      simulatorName c = getSimulator path option := by
  have hs : ∃ s, firstFound path simulators = some s := by
    cases h : firstFound path simulators with
    | some s => exact ⟨s, rfl⟩
    | none =>
      rw [firstFound_none] at h
      obtain ⟨p, hp, e⟩ := hi
      have := h (p.2.toList, p.1.toList) (by rw [table]; exact List.mem_map.2 ⟨p, hp, rfl⟩)
      rw [e] at this; cases this
  obtain ⟨s, hs⟩ := hs
  have hg : getSimulator path option = s := by rw [getSimulator, if_pos ho, hs]
  have hp := preferred_iff _ _ hs
  obtain ⟨p, hpm, rfl, hin⟩ := preferred_mem hp
  obtain ⟨c, hl, hn, hb, hname⟩ := runners p hpm
  refine ⟨c, by rw [hg]; exact hp, ?_, ?_, by rw [hg, hname]⟩
  · rw [makeRunner, hg, getRunner, hl]
    rcases hn with hn | ⟨hn, _⟩ <;> simp [hn, inPath, hin]
  · rcases hb with hb | hb <;> simp [canBuild, hb, inPath, hin]

/-- Commands of a machine with GHDL and Icarus. -/
def exPath (s : PyStr) : Bool := s == "iverilog".toList || s == "ghdl".toList

example : (∃ p ∈ preference, exPath p.2.toList = true) ∧ makeRunner exPath "auto".toList = .runner .Ghdl ∧
    makeRunner exPath "icarus".toList = .runner .Icarus ∧ makeRunner exPath "nvc".toList = .systemExit := by
  decide +kernel

/-- C176: there is only one preferred simulator. -/
theorem C176_unique (path : PyStr → Bool) (s t : PyStr) (hs : Preferred path s) (ht : Preferred path t) : s = t := by
  obtain ⟨b, n, c, a, e, rfl, hp, hb⟩ := hs
  obtain ⟨b', n', c', a', e', rfl, hp', hb'⟩ := ht
  rw [e] at e'
  rcases List.append_eq_append_iff.1 e' with ⟨d, e1, e2⟩ | ⟨d, e1, e2⟩
  · cases d with
    | nil => simp at e2; rw [e2.1.1]
    | cons x d =>
      simp at e2
      have := hb' (n, c) (by rw [e1]; simp [e2.1])
      rw [hp] at this; cases this
  · cases d with
    | nil => simp at e2; rw [e2.1.1]
    | cons x d =>
      simp at e2
      have := hb (n', c') (by rw [e1]; simp [e2.1])
      rw [hp'] at this; cases this

/-- C176: a simulator that is named is used or refused, never replaced: with `path` lacking its command, making the runner
or (Verilator) the build ends with SystemExit. -/
theorem C176_named (path : PyStr → Bool) (p : String × String) (hp : p ∈ all) :
    getSimulator path p.1.toList = p.1.toList ∧
    ((∃ c, supported.lookup p.1.toList = some c ∧ makeRunner path p.1.toList = .runner c ∧ canBuild path c = true) ↔
      path p.2.toList = true) ∧
    (path p.2.toList = false → makeRunner path p.1.toList = .systemExit ∨
      ∃ c, makeRunner path p.1.toList = .runner c ∧ canBuild path c = false) := by
  have hne : ¬ (p.1.toList = [] ∨ p.1.toList = "auto".toList) := by
    have : ∀ p ∈ all, ¬ (p.1.toList = [] ∨ p.1.toList = "auto".toList) := by decide +kernel
    exact this p hp
  have hg : getSimulator path p.1.toList = p.1.toList := by rw [getSimulator, if_neg hne]
  obtain ⟨c, hl, h1, h2⟩ := lookup_all p hp
  have hm : makeRunner path p.1.toList = if inPath path c.needs then .runner c else .systemExit := by
    rw [makeRunner, hg, getRunner, hl]
  refine ⟨hg, ?_, ?_⟩
  · by_cases hv : p.1 = "verilator"
    · obtain ⟨n1, n2⟩ := h2 hv
      constructor
      · rintro ⟨c', hc', _, hb⟩
        rw [hl] at hc'; cases hc'
        simpa [canBuild, n2, inPath] using hb
      · intro h
        exact ⟨c, hl, by simp [hm, n1, inPath], by simp [canBuild, n2, inPath, h]⟩
    · obtain ⟨n1, n2⟩ := h1 hv
      constructor
      · rintro ⟨c', hc', hr, _⟩
        rw [hm, n1] at hr
        cases h : path p.2.toList with
        | true => rfl
        | false => simp [inPath, h] at hr
      · intro h
        exact ⟨c, hl, by simp [hm, n1, inPath, h], by simp [canBuild, n2, inPath]⟩
  · intro h
    by_cases hv : p.1 = "verilator"
    · obtain ⟨n1, n2⟩ := h2 hv
      exact .inr ⟨c, by simp [hm, n1, inPath], by simp [canBuild, n2, inPath, h]⟩
    · obtain ⟨n1, n2⟩ := h1 hv
      exact .inl (by simp [hm, n1, inPath, h])

example : ("verilator", "verilator") ∈ all ∧ makeRunner exPath "verilator".toList = .runner .Verilator ∧
    canBuild exPath .Verilator = false := by decide +kernel

/-- C176: other names, and `auto` with none of the simulators, are refused with ValueError. -/
theorem C176_refused (path : PyStr → Bool) (option : PyStr)
    (h : (option ≠ [] ∧ option ≠ "auto".toList ∧ ∀ p ∈ all, option ≠ p.1.toList) ∨
      ((option = [] ∨ option = "auto".toList) ∧ ∀ p ∈ preference, path p.2.toList = false)) :
    makeRunner path option = .valueError := by
  rcases h with ⟨h1, h2, h3⟩ | ⟨h1, h2⟩
  · rw [makeRunner, getSimulator, if_neg (fun h => h.elim h1 h2), getRunner, lookup_none _ h3]
  · have : firstFound path simulators = none := by
      rw [firstFound_none, table]
      intro q hq
      obtain ⟨p, hp, rfl⟩ := List.mem_map.1 hq
      exact h2 p hp
    rw [makeRunner, getSimulator, if_pos h1, this, getRunner]
    have hn : ∀ p ∈ all, ("auto".toList ≠ p.1.toList) ∧ ([] ≠ p.1.toList) := by decide +kernel
    rw [lookup_none]
    intro p hp
    rcases h1 with rfl | rfl
    · exact (hn p hp).2
    · exact (hn p hp).1

example : makeRunner (fun s => s == "qrun".toList) "auto".toList = .valueError ∧
    makeRunner exPath "modelsim".toList = .valueError := by decide +kernel

/-- C176, in full: every simulator with a runner can be chosen on the command line, `auto` finds it if it is installed, and
`hdl.simulator` is the name it was chosen by. -/
def C176_all_full : Prop := ∀ p ∈ all, accepted p.1.toList = true ∧
  (∀ path : PyStr → Bool, path p.2.toList = true → ∃ c, makeRunner path "auto".toList = .runner c) ∧
  ∀ c, supported.lookup p.1.toList = some c → simulatorName c = p.1.toList

/-- C176: DSim and QIS with qrun are not among the choices, and `auto` does not find them; Active-HDL is not among the
choices, and where it is installed `auto` takes it for Riviera-PRO; the name of QIS with qrun is another one. -/
theorem C176_all_counterexample : ¬ C176_all_full ∧ accepted "dsim".toList = false ∧ accepted "questa-qisqrun".toList = false ∧
    accepted "activehdl".toList = false ∧ makeRunner (fun s => s == "dsim".toList) "auto".toList = .valueError ∧
    makeRunner (fun s => s == "vsimsa".toList) "auto".toList = .runner .Riviera ∧
    simulatorName .QuestaQIS = "questaqis".toList := by
  refine ⟨fun h => ?_, by decide +kernel, by decide +kernel, by decide +kernel, by decide +kernel, by decide +kernel, by decide +kernel⟩
  exact absurd (h ("dsim", "dsim") (by decide)).1 (by decide +kernel)

/-- C176, partial (the full claim is false of the code): it holds of all but DSim, QIS with qrun and Active-HDL; the choices
are those and `auto`, no others. -/
theorem C176_all_partial : (∀ p ∈ all, p.1 ≠ "dsim" → p.1 ≠ "questa-qisqrun" → p.1 ≠ "activehdl" → accepted p.1.toList = true ∧
      (∀ path : PyStr → Bool, path p.2.toList = true → ∃ c, makeRunner path "auto".toList = .runner c) ∧
      ∀ c, supported.lookup p.1.toList = some c → simulatorName c = p.1.toList) ∧
    ∀ s, accepted s = true ↔ s = "auto".toList ∨ ∃ p ∈ preference, s = p.1.toList := by
  constructor
  · intro p hp h1 h2 h3
    have hmem : ∀ p ∈ all, p.1 ≠ "dsim" → p.1 ≠ "questa-qisqrun" → p.1 ≠ "activehdl" → p ∈ preference := by decide +kernel
    have hpm := hmem p hp h1 h2 h3
    refine ⟨?_, ?_, ?_⟩
    · have : ∀ p ∈ preference, accepted p.1.toList = true := by decide +kernel
      exact this p hpm
    · intro path hpath
      obtain ⟨c, _, h, _⟩ := C176_auto path "auto".toList (.inr rfl) ⟨p, hpm, hpath⟩
      exact ⟨c, h⟩
    · intro c hc
      obtain ⟨c', hl, _, _, hn⟩ := runners p hpm
      rw [hl] at hc; cases hc
      exact hn
  · intro s
    have : simulators.map (·.2) = preference.map (·.1.toList) := by decide +kernel
    simp only [accepted, this, Bool.or_eq_true, beq_iff_eq, List.contains_iff_mem, List.mem_map]
    constructor
    · rintro (h | ⟨p, hp, e⟩)
      · exact .inl h
      · exact .inr ⟨p, hp, e.symm⟩
    · rintro (h | ⟨p, hp, e⟩)
      · exact .inl h
      · exact .inr ⟨p, hp, e.symm⟩

example : accepted "icarus".toList = true ∧ accepted "modelsim".toList = false := by decide +kernel

/-- C177: whatever the parameters, defaults and documentation of a marker are, pytest knows it by its name. -/
theorem C177_name (m : Marker) (h : Identifier m.name) (lines : List PyStr) (hm : description m ∈ lines) :
    registeredName (description m) = m.name ∧ strictAccepts lines m.name = true := by
  refine ⟨registered_description m h, ?_⟩
  rw [strictAccepts, List.contains_iff_mem]
  exact List.mem_map.2 ⟨_, hm, registered_description m h⟩

/-- A marker with parentheses and colons in default and documentation. -/
def exMarker : Marker :=
  { name := "cocotb_waves".toList
    params := [⟨"condition".toList, .normal, some "f(x): y".toList⟩, ⟨"k".toList, .keywordOnly, none⟩, ⟨"o".toList, .varKeyword, none⟩]
    doc := "Record: signal (traces).".toList }

example : description exMarker = "cocotb_waves(condition=f(x): y, *, k, o=...): Record: signal (traces).".toList ∧
    Identifier exMarker.name := by unfold Identifier; decide +kernel

/-- C177, in full: with `--strict-markers` all markers that the plugin obeys can be used. -/
def C177_strict_full : Prop := ∀ (function : PyStr → Marker) (lines : List PyStr), (∀ n, (function n).name = n) →
  ∀ n ∈ markers, strictAccepts (registerMarkers function lines) n.toList = true

/-- Functions without parameters. -/
def exFunction (n : PyStr) : Marker := { name := n, params := [], doc := [] }

/-- C177: `cocotb_verbose` is not registered. -/
theorem C177_strict_counterexample : ¬ C177_strict_full := by
  intro h
  exact absurd (h exFunction [] (fun _ => rfl) "cocotb_verbose" (by decide)) (by decide +kernel)

/-- C177, partial (the full claim is false of the code): all markers but `cocotb_verbose` can be used, and markers of
others stay as they are; the plugin makes no others known. -/
theorem C177_strict_partial (function : PyStr → Marker) (lines : List PyStr) (hf : ∀ n, (function n).name = n) (n : PyStr) :
    strictAccepts (registerMarkers function lines) n = true ↔
      strictAccepts lines n = true ∨ ∃ m ∈ markers, m ≠ "cocotb_verbose" ∧ n = m.toList := by
  have key : ∀ k ∈ registered, registeredName (description (function k)) = k := by
    intro k hk
    have := registered_description (function k) (by rw [hf]; exact registered_ident k hk)
    rw [this, hf]
  have tab : ∀ k, k ∈ registered ↔ ∃ m ∈ markers, m ≠ "cocotb_verbose" ∧ k = m.toList := by
    intro k
    have h1 : ∀ k ∈ registered, ∃ m ∈ markers, m ≠ "cocotb_verbose" ∧ k = m.toList := by decide +kernel
    have h2 : ∀ m ∈ markers, m ≠ "cocotb_verbose" → m.toList ∈ registered := by decide +kernel
    exact ⟨h1 k, fun ⟨m, a, b, c⟩ => c ▸ h2 m a b⟩
  rw [← tab]
  simp only [strictAccepts, registerMarkers, List.map_append, List.contains_iff_mem, List.mem_append, List.mem_map]
  constructor
  · rintro (h | ⟨l, ⟨k, hk, rfl⟩, e⟩)
    · exact .inl h
    · rw [key k hk] at e; subst e; exact .inr hk
  · rintro (h | h)
    · exact .inl h
    · exact .inr ⟨_, ⟨n, h, rfl⟩, key n h⟩

example : strictAccepts (registerMarkers exFunction ["slow: takes long".toList]) "slow".toList = true ∧
    strictAccepts (registerMarkers exFunction []) "cocotb_env".toList = true := by decide +kernel

end Verif
