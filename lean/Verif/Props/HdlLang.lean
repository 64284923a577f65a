import Verif.Model.HdlLang
import Verif.Props.Runner
/-!
# C185: the language of the toplevel under pytest
-/
namespace Verif
open Verif.Runner HdlLang

/-- The session has the options of the tests: no language was set. -/
def SameOptions (sim : Sim) (s : Session) : Prop := s.lang = initLang sim "auto"

/-- A design of one file. -/
def exOneFile (t : Tag) : Build :=
  { sources := [(t, lit "/a")], vhdlSources := [], verilogSources := [], args := [], hasToplevel := true, always := false, waves := false }

/-- C185 in full: a test that builds a design of its own simulates it with the language of its own sources, whatever else the session built. -/
def C185_own_full : Prop :=
  ∀ (sim : Sim) (s : Session) (b : Build) (l : String), SameOptions sim s → checkLang sim b none = .ok l →
    simulated sim "auto" s (some b) none = .ok l

/-- The code violates it: if a Verilog design was built for the session, a VHDL design of one test is simulated as Verilog. -/
theorem C185_own_counterexample : ¬ C185_own_full := by
  intro h
  have h1 := h .questa ⟨none, some (exOneFile .verilog)⟩ (exOneFile .vhdl) "vhdl" rfl (by decide)
  have h2 : simulated .questa "auto" ⟨none, some (exOneFile .verilog)⟩ (some (exOneFile .vhdl)) none = .ok "verilog" := by decide
  rw [h2] at h1
  exact absurd h1 (by decide)

/-- `checkLang` gives supported languages only. -/
theorem HdlLang.checkLang_mem {sim : Sim} {b : Build} {x : Option String} {l : String} (h : checkLang sim b x = .ok l) : l ∈ sim.interfaces := by
  unfold checkLang at h
  dsimp only at h
  split at h
  · cases h
  · split at h
    · next hm => cases h; exact hm
    · cases h

/-- What languages without an option are. -/
theorem HdlLang.init_cases (sim : Sim) : (initLang sim "auto" = none) ∨ ∃ l, initLang sim "auto" = some l ∧ sim.interfaces = [l] ∧ isSet (some l) = true := by
  cases sim <;> first | exact .inl rfl | exact .inr ⟨_, rfl, rfl, by decide⟩

/-- C185 (partial): it does if nothing was built for the session, or something of the same language. -/
theorem C185_own_partial (sim : Sim) (s : Session) (b : Build) (l : String) (hs : SameOptions sim s) (hb : checkLang sim b none = .ok l)
    (h : ∀ b', s.built = some b' → checkLang sim b' none = .ok l) : simulated sim "auto" s (some b) none = .ok l := by
  obtain ⟨sl, built⟩ := s
  have hs' : sl = initLang sim "auto" := hs
  subst hs'
  unfold simulated hdlFixture testLang
  rcases HdlLang.init_cases sim with e | ⟨k, e, hk, ht⟩
  · rw [e]
    cases built with
    | none => exact hb
    | some b' =>
      have hb' := h b' rfl
      dsimp only [isSet]
      rw [hb']
      dsimp only
      exact if_pos (HdlLang.checkLang_mem hb')
  · rw [e]
    dsimp only
    rw [ht]
    dsimp only
    have hl := HdlLang.checkLang_mem hb
    rw [hk] at hl ⊢
    rw [List.mem_singleton.1 hl]
    exact if_pos (List.mem_singleton.2 rfl)

example : SameOptions .questa ⟨none, some (exOneFile .vhdl)⟩ ∧ checkLang .questa (exOneFile .vhdl) none = .ok "vhdl" ∧
    simulated .questa "auto" ⟨none, some (exOneFile .vhdl)⟩ (some (exOneFile .vhdl)) none = .ok "vhdl" := by
  refine ⟨rfl, by decide, by decide⟩

/-- **C185.** A test that builds nothing simulates the design of the session with the language of its sources. -/
theorem C185_session (sim : Sim) (s : Session) (b : Build) (l : String) (hs : SameOptions sim s) (hb : s.built = some b)
    (hl : checkLang sim b none = .ok l) : simulated sim "auto" s none none = .ok l := by
  obtain ⟨sl, built⟩ := s
  have hs' : sl = initLang sim "auto" := hs
  have hb' : built = some b := hb
  subst hs' hb'
  unfold simulated hdlFixture testLang
  rcases HdlLang.init_cases sim with e | ⟨k, e, hk, ht⟩
  · rw [e]
    dsimp only [isSet]
    rw [hl]
    dsimp only
    exact if_pos (HdlLang.checkLang_mem hl)
  · rw [e]
    dsimp only
    rw [ht]
    dsimp only
    have hm := HdlLang.checkLang_mem hl
    rw [hk] at hm ⊢
    rw [List.mem_singleton.1 hm]
    exact if_pos (List.mem_singleton.2 rfl)

example : simulated .xcelium "auto" ⟨none, some (exOneFile .vhdl)⟩ none none = .ok "vhdl" ∧
    simulated .icarus "auto" ⟨some "verilog", some (exOneFile .verilog)⟩ none none = .ok "verilog" := by decide

/-- C185 in full, a language given to `test`: it is the one of the simulation if the simulator has it. -/
def C185_given_full : Prop :=
  ∀ (sim : Sim) (s : Session) (own : Option Build) (l : String), l ∈ sim.interfaces → simulated sim "auto" s own (some l) = .ok l

/-- A design with files of both languages, given in the old way. -/
def exBothLanguages : Build :=
  { sources := [], vhdlSources := [(.vhdl, lit "/a.vhd")], verilogSources := [(.verilog, lit "/b.v")], args := [], hasToplevel := true, always := false,
    waves := false }

/-- The code violates it: if the language of a design that was built for the session is unclear, no test gets as far as `test`. -/
theorem C185_given_counterexample : ¬ C185_given_full := by
  intro h
  have h1 := h .questa ⟨none, some exBothLanguages⟩ none "vhdl" (by decide)
  have h2 : simulated .questa "auto" ⟨none, some exBothLanguages⟩ none (some "vhdl") = .error .valueError := by decide
  rw [h2] at h1
  cases h1

/-- C185 (partial): it is unless the language of the design of the session is looked for and not found. -/
theorem C185_given_partial (sim : Sim) (s : Session) (own : Option Build) (l : String) (hl : l ∈ sim.interfaces)
    (h : ∀ b, s.built = some b → isSet s.lang = true ∨ ∃ k, checkLang sim b s.lang = .ok k) : simulated sim "auto" s own (some l) = .ok l := by
  have hset : isSet (some l) = true := by
    revert hl
    cases sim <;> simp [Sim.interfaces, isSet] <;> (try rintro (rfl | rfl)) <;> (try rintro rfl) <;> decide
  have key : ∀ inst, testLang sim inst own (some l) = .ok l := by
    intro inst
    unfold testLang
    rw [if_pos hset]
    dsimp only
    exact if_pos hl
  unfold simulated
  have hf : ∃ x, hdlFixture sim s (initLang sim "auto") = .ok x := by
    obtain ⟨sl, built⟩ := s
    unfold hdlFixture
    cases built with
    | none => cases isSet sl <;> exact ⟨_, rfl⟩
    | some b =>
      dsimp only
      rcases h b rfl with h' | ⟨k, hk⟩
      · have h'' : isSet sl = true := h'
        rw [h'']
        exact ⟨_, rfl⟩
      · have hk' : checkLang sim b sl = .ok k := hk
        cases isSet sl
        · dsimp only
          rw [hk']
          exact ⟨_, rfl⟩
        · exact ⟨_, rfl⟩
  obtain ⟨x, hx⟩ := hf
  rw [hx]
  exact key x

example : simulated .questa "auto" ⟨none, some (exOneFile .verilog)⟩ (some (exOneFile .vhdl)) (some "vhdl") = .ok "vhdl" ∧
    simulated .questa "auto" ⟨some "vhdl", some exBothLanguages⟩ none (some "verilog") = .ok "verilog" := by decide

end Verif
