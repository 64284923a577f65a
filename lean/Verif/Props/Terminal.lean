import Verif.Spec.Terminal
/-!
# C184: failures in the terminal
-/
namespace Verif
open Spec Terminal Summary

namespace TerminalL

theorem status_failed {t : TReport} (h : Failed t) :
    status t = if t.runner ∧ t.rep.when = .call then .runner .failed else if t.rep.when = .call then .plain .failed else .plain .error := by
  obtain ⟨⟨id, w, o, x, c⟩, r⟩ := t
  have ho : o = .failed := h
  subst ho
  cases w <;> cases r <;> cases x <;> rfl

theorem failed_of {t : TReport}
    (h : status t = .runner .failed ∨ status t = .plain .failed ∨ status t = .plain .error ∨ status t = .runner .error) : Failed t := by
  obtain ⟨⟨id, w, o, x, c⟩, r⟩ := t
  cases o
  case failed => rfl
  all_goals exfalso; revert h; cases w <;> cases r <;> cases x <;> simp [status, category]

theorem stats_mem {ts : List TReport} {k : Cat} {t : TReport} : t ∈ stats ts k ↔ t ∈ ts ∧ status t = k := by
  unfold stats
  rw [List.mem_filter, decide_eq_true_iff]

theorem length_pos {ts : List TReport} {k : Cat} : (stats ts k).length ≠ 0 ↔ ∃ t ∈ ts, status t = k := by
  constructor
  · intro h
    obtain ⟨t, ht⟩ := List.exists_mem_of_length_pos (Nat.pos_of_ne_zero h)
    exact ⟨t, stats_mem.1 ht⟩
  · rintro ⟨t, h1, h2⟩
    exact Nat.pos_iff_ne_zero.1 (List.length_pos_of_mem (stats_mem.2 ⟨h1, h2⟩))

theorem count_stats (ts : List TReport) (k : Cat) (t : TReport) : (stats ts k).count t = if status t = k then ts.count t else 0 := by
  unfold stats
  by_cases h : status t = k
  · rw [if_pos h, List.count_filter (by rw [decide_eq_true_iff]; exact h)]
  · rw [if_neg h, List.count_eq_zero]
    intro hm
    exact h (stats_mem.1 hm).2

theorem keys_mem (k : Cat) : ∀ (ts : List TReport) (ks : List Cat), k ∈ keysOf ts ks ↔ k ∈ ks ∨ ∃ t ∈ ts, status t = k
  | [], ks => by simp [keysOf]
  | t :: ts, ks => by
    show k ∈ keysOf ts _ ↔ _
    rw [keys_mem k ts]
    by_cases h : status t ∈ ks
    · rw [if_pos h]
      constructor
      · rintro (h' | ⟨u, h1, h2⟩)
        · exact .inl h'
        · exact .inr ⟨u, List.mem_cons_of_mem _ h1, h2⟩
      · rintro (h' | ⟨u, h1, h2⟩)
        · exact .inl h'
        · rcases List.mem_cons.1 h1 with rfl | h1
          · exact .inl (h2 ▸ h)
          · exact .inr ⟨u, h1, h2⟩
    · rw [if_neg h]
      constructor
      · rintro (h' | ⟨u, h1, h2⟩)
        · rcases List.mem_append.1 h' with h' | h'
          · exact .inl h'
          · exact .inr ⟨t, List.mem_cons_self, (List.mem_singleton.1 h').symm⟩
        · exact .inr ⟨u, List.mem_cons_of_mem _ h1, h2⟩
      · rintro (h' | ⟨u, h1, h2⟩)
        · exact .inl (List.mem_append_left _ h')
        · rcases List.mem_cons.1 h1 with rfl | h1
          · exact .inl (List.mem_append_right _ (List.mem_singleton.2 h2.symm))
          · exact .inr ⟨u, h1, h2⟩

theorem keys_nodup : ∀ (ts : List TReport) (ks : List Cat), ks.Nodup → (keysOf ts ks).Nodup
  | [], ks, h => h
  | t :: ts, ks, h => by
    show (keysOf ts _).Nodup
    apply keys_nodup ts
    by_cases hm : status t ∈ ks
    · rw [if_pos hm]; exact h
    · rw [if_neg hm, List.nodup_append]
      refine ⟨h, List.nodup_cons.2 ⟨List.not_mem_nil, List.nodup_nil⟩, ?_⟩
      intro a ha b hb e
      rw [List.mem_singleton.1 hb] at e
      exact hm (e ▸ ha)

end TerminalL
open TerminalL

/-- **C184.** Each failure of a phase of a test, be the test a runner or not, is shown with its traceback exactly once, in the section where it
belongs, and nothing else is shown there; with `--tb=no` nothing is. -/
theorem C184_traceback (ts : List TReport) :
    (∀ t, ((shown true ts).map (·.2)).count t = if t.rep.outcome = .failed then ts.count t else 0) ∧
    (∀ sec t, (sec, t) ∈ shown true ts ↔ t ∈ ts ∧ Failed t ∧ Place t sec) ∧
    shown false ts = [] := by
  refine ⟨fun t => ?_, fun sec t => ?_, rfl⟩
  · unfold shown
    rw [if_pos rfl]
    simp only [List.map_append, List.map_map, List.count_append]
    have e : ∀ (x : Sec) (l : List TReport), l.map ((fun y : Sec × TReport => y.2) ∘ (x, ·)) = l := fun x l => List.map_id l
    rw [e, e, e, count_stats, count_stats, count_stats]
    by_cases h : t.rep.outcome = .failed
    · rw [status_failed h, if_pos h]
      by_cases h1 : t.runner ∧ t.rep.when = .call
      · rw [if_pos h1]; simp
      · rw [if_neg h1]
        by_cases h2 : t.rep.when = .call
        · rw [if_pos h2]; simp
        · rw [if_neg h2]; simp
    · rw [if_neg h]
      have hn : ∀ k, k = .runner .failed ∨ k = .plain .failed ∨ k = .plain .error → status t ≠ k := by
        intro k hk e
        refine h (failed_of ?_)
        rcases hk with rfl | rfl | rfl
        · exact .inl e
        · exact .inr (.inl e)
        · exact .inr (.inr (.inl e))
      rw [if_neg (hn _ (.inl rfl)), if_neg (hn _ (.inr (.inr rfl))), if_neg (hn _ (.inr (.inl rfl)))]
  · unfold shown
    rw [if_pos rfl]
    simp only [List.mem_append, List.mem_map, Prod.mk.injEq]
    constructor
    · rintro ((⟨u, hu, rfl, rfl⟩ | ⟨u, hu, rfl, rfl⟩) | ⟨u, hu, rfl, rfl⟩)
      all_goals
        obtain ⟨h1, h2⟩ := stats_mem.1 hu
        have hf : Failed u := failed_of (by simp [h2])
        refine ⟨h1, hf, ?_⟩
        rw [status_failed hf] at h2
      · by_cases h3 : u.runner ∧ u.rep.when = .call
        · exact .runner _ h3
        · rw [if_neg h3] at h2; split at h2 <;> cases h2
      · split at h2
        · cases h2
        · split at h2
          · cases h2
          · next h => exact .fixture _ h
      · split at h2
        · cases h2
        · next h3 =>
          split at h2
          · next h =>
            refine .test _ ?_ h
            cases hr : u.runner
            · rfl
            · exact absurd ⟨hr, h⟩ h3
          · cases h2
    · rintro ⟨h1, h2, h3⟩
      have hs := status_failed h2
      cases h3 with
      | runner h =>
        have h' : t.runner = true ∧ t.rep.when = .call := h
        rw [if_pos h'] at hs
        exact .inl (.inl ⟨t, stats_mem.2 ⟨h1, hs⟩, rfl, rfl⟩)
      | fixture h =>
        rw [if_neg (fun h' => h h'.2), if_neg h] at hs
        exact .inl (.inr ⟨t, stats_mem.2 ⟨h1, hs⟩, rfl, rfl⟩)
      | test h h' =>
        rw [if_neg (by rw [h]; rintro ⟨h'', -⟩; cases h''), if_pos h'] at hs
        exact .inr ⟨t, stats_mem.2 ⟨h1, hs⟩, rfl, rfl⟩

/-- **C184.** The numbers in the last line are for different categories, none is 0, each is how many phases have that category, and no category
but the empty one is left out. -/
theorem C184_numbers (ts : List TReport) :
    ((lastLine ts).map (·.1)).Nodup ∧
    (∀ k n, (k, n) ∈ lastLine ts ↔ k ≠ .plain .none ∧ n ≠ 0 ∧ n = (ts.filter fun t => status t = k).length) := by
  have hf : (lastLine ts).map (·.1) = (keysOf ts []).filter fun k => k ≠ .plain .none := by
    unfold lastLine
    rw [List.map_map]
    exact List.map_id _
  refine ⟨?_, fun k n => ?_⟩
  · rw [hf]
    exact (keys_nodup ts [] List.nodup_nil).filter _
  · unfold lastLine
    rw [List.mem_map]
    constructor
    · rintro ⟨k', h, e⟩
      injection e with e1 e2
      subst e1
      rw [List.mem_filter, keys_mem] at h
      obtain ⟨h1 | h1, h2⟩ := h
      · cases h1
      · refine ⟨of_decide_eq_true h2, ?_, e2.symm⟩
        rw [← e2]
        exact length_pos.2 h1
    · rintro ⟨h1, h2, h3⟩
      refine ⟨k, ?_, by rw [h3]; rfl⟩
      rw [List.mem_filter, keys_mem]
      rw [h3] at h2
      exact ⟨.inr (length_pos.1 h2), decide_eq_true h1⟩

/-- C184 in full, the short summary: it lists each failure. -/
def C184_short_full : Prop := ∀ (ts : List TReport) (t : TReport), t ∈ short ts ↔ t ∈ ts ∧ Failed t

/-- A failing test function of a runner. -/
def exRunner : TReport := ⟨⟨[97], .call, .failed, false, false⟩, true⟩

/-- A passing test function of a runner, and of another test. -/
def exPass (runner : Bool) : TReport := ⟨⟨[98], .call, .passed, false, false⟩, runner⟩

/-- The code violates it: pytest lists the category `failed`, and that of a runner is `failed cocotb runner`. -/
theorem C184_short_counterexample : ¬ C184_short_full := by
  intro h
  exact absurd ((h [exRunner] exRunner).2 ⟨by decide, rfl⟩) (by decide)

/-- C184 (partial): it lists all failures but those of the test functions of runners. -/
theorem C184_short_partial (ts : List TReport) (t : TReport) : t ∈ short ts ↔ t ∈ ts ∧ Failed t ∧ ¬ RunnerCall t := by
  unfold short
  rw [List.mem_append, stats_mem, stats_mem]
  constructor
  · rintro (⟨h1, h2⟩ | ⟨h1, h2⟩)
    all_goals
      have hf : Failed t := failed_of (by simp [h2])
      refine ⟨h1, hf, fun h3 => ?_⟩
      have h3' : t.runner = true ∧ t.rep.when = .call := h3
      rw [status_failed hf, if_pos h3'] at h2
      cases h2
  · rintro ⟨h1, h2, h3⟩
    have hs := status_failed h2
    have h3' : ¬ (t.runner = true ∧ t.rep.when = .call) := h3
    rw [if_neg h3'] at hs
    by_cases h : t.rep.when = .call
    · rw [if_pos h] at hs; exact .inl ⟨h1, hs⟩
    · rw [if_neg h] at hs; exact .inr ⟨h1, hs⟩

example : short [exRunner, ⟨⟨[97], .teardown, .failed, false, false⟩, true⟩, exPass false] = [⟨⟨[97], .teardown, .failed, false, false⟩, true⟩] := by decide

/-- C184 in full, the colour of the last line: red if, and only if, something failed, and green if all tests passed. -/
def C184_colour_full : Prop :=
  ∀ ts : List TReport, (lineColour ts = .red ↔ ∃ t ∈ ts, Failed t) ∧ ((∃ t ∈ ts, t.rep.when = .call) → (∀ t ∈ ts, Passed t) → lineColour ts = .green)

/-- The code violates it: the last line is yellow although a runner failed. -/
theorem C184_colour_counterexample : ¬ C184_colour_full := by
  intro h
  exact absurd ((h [exRunner]).1.2 ⟨exRunner, by decide, rfl⟩) (by decide)

/-- And it is yellow although all tests passed, because pytest does not know the categories of runners. -/
theorem C184_colour_counterexample_green : ¬ C184_colour_full := by
  intro h
  exact absurd ((h [exPass true]).2 ⟨exPass true, by decide, rfl⟩ (by intro t ht; rw [List.mem_singleton.1 ht]; exact ⟨rfl, rfl⟩)) (by decide)

/-- C184 (partial): red is the colour if, and only if, something but the test function of a runner failed; green if all tests passed and
no test function was that of a runner. -/
theorem C184_colour_partial (ts : List TReport) :
    (lineColour ts = .red ↔ ∃ t ∈ ts, Failed t ∧ ¬ RunnerCall t) ∧
    ((∃ t ∈ ts, t.rep.when = .call) → (∀ t ∈ ts, Passed t ∧ ¬ RunnerCall t) → lineColour ts = .green) := by
  have hred : ((stats ts (.plain .failed)).length ≠ 0 ∨ (stats ts (.plain .error)).length ≠ 0) ↔ ∃ t ∈ ts, Failed t ∧ ¬ RunnerCall t := by
    rw [length_pos, length_pos]
    constructor
    · rintro (⟨t, h1, h2⟩ | ⟨t, h1, h2⟩)
      · have := (C184_short_partial ts t).1 (List.mem_append_left _ (stats_mem.2 ⟨h1, h2⟩))
        exact ⟨t, this⟩
      · have := (C184_short_partial ts t).1 (List.mem_append_right _ (stats_mem.2 ⟨h1, h2⟩))
        exact ⟨t, this⟩
    · rintro ⟨t, h⟩
      rcases List.mem_append.1 ((C184_short_partial ts t).2 h) with h' | h'
      · exact .inl ⟨t, stats_mem.1 h'⟩
      · exact .inr ⟨t, stats_mem.1 h'⟩
  constructor
  · rw [← hred]
    unfold lineColour
    constructor
    · intro h
      by_cases h1 : (stats ts (.plain .failed)).length ≠ 0 ∨ (stats ts (.plain .error)).length ≠ 0
      · exact h1
      · rw [if_neg h1] at h
        split at h
        · cases h
        · split at h <;> cases h
    · intro h
      rw [if_pos h]
  · rintro ⟨t, ht, hc⟩ hall
    have hst : ∀ u ∈ ts, status u = if u.rep.when = .call then .plain .passed else .plain .none := by
      intro u hu
      obtain ⟨⟨h1, h2⟩, h3⟩ := hall u hu
      obtain ⟨⟨id, w, o, x, c⟩, r⟩ := u
      have h1' : o = .passed := h1
      have h2' : x = false := h2
      subst h1' h2'
      cases w
      case call =>
        cases r
        · rfl
        · exact absurd ⟨rfl, rfl⟩ h3
      all_goals cases r <;> rfl
    unfold lineColour
    rw [if_neg, if_neg, if_pos]
    · exact length_pos.2 ⟨t, ht, by rw [hst t ht, if_pos hc]⟩
    · rintro (h | h)
      · obtain ⟨u, hu, e⟩ := length_pos.1 h
        rw [hst u hu] at e
        split at e <;> cases e
      · obtain ⟨u, hu, e⟩ := List.any_eq_true.1 h
        rw [hst u hu] at e
        split at e <;> cases e
    · rw [hred]
      rintro ⟨u, hu, hf, -⟩
      have h1 : u.rep.outcome = .passed := (hall u hu).1.1
      have h2 : u.rep.outcome = .failed := hf
      rw [h1] at h2
      cases h2

example : lineColour [exPass false, ⟨⟨[97], .setup, .failed, false, true⟩, false⟩, exRunner] = .red ∧ lineColour [exPass false, exPass false] = .green ∧
    lastLine [exPass false, exRunner, exPass true, exRunner] = [(.plain .passed, 1), (.runner .failed, 2), (.runner .passed, 1)] ∧
    (shown true [exPass false, exRunner]).map (·.1) = [.runnerFailures] := by decide

end Verif
