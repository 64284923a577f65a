import Verif.Spec.LogTime
import Verif.Lemmas.NumTime
import Mathlib.Data.List.Induction
/-!
# C179: the simulation time in log messages
-/
namespace Verif

open LogTime Spec.LogTime

namespace LogTimeL

/-- All records the handlers have or wrote. -/
def Recs (s : St) (r : Rec) : Prop := r ∈ s.out ∨ ∃ k, (k, r) ∈ s.wait

/-- What handler `g` makes of a record. -/
def filt (c : Cfg) (now : Option Nat) (g : Stage) (r : Rec) : Rec :=
  let r := if g.ctx then ctxFilter now r else r
  if c.plugin && g.py then pyFilter c.isSim now r else r

theorem arrive_recs {c : Cfg} {s : St} {k : Nat} {r x : Rec} (h : Recs (arrive c s k r) x) :
    Recs s x ∨ ∃ g, c.stages[k]? = some g ∧ x = filt c s.now g r := by
  unfold arrive at h
  cases hg : c.stages[k]? with
  | none => rw [hg] at h; exact Or.inl h
  | some g =>
    rw [hg] at h
    simp only at h
    split at h
    · rcases h with h | ⟨j, h⟩
      · simp only [List.mem_append, List.mem_singleton] at h
        rcases h with h | h
        · exact Or.inl (Or.inl h)
        · exact Or.inr ⟨g, rfl, h⟩
      · exact Or.inl (Or.inr ⟨j, h⟩)
    · rcases h with h | ⟨j, h⟩
      · exact Or.inl (Or.inl h)
      · simp only [List.mem_append, List.mem_singleton, Prod.mk.injEq] at h
        rcases h with h | h
        · exact Or.inl (Or.inr ⟨j, h⟩)
        · exact Or.inr ⟨g, rfl, h.2⟩

theorem arrive_now (c : Cfg) (s : St) (k : Nat) (r : Rec) : (arrive c s k r).now = s.now := by
  unfold arrive
  split
  · rfl
  · dsimp only; split <;> rfl

theorem arrive_raised (c : Cfg) (s : St) (k : Nat) (r : Rec) : (arrive c s k r).raised = s.raised := by
  unfold arrive
  split
  · rfl
  · dsimp only; split <;> rfl

theorem fold_now (c : Cfg) (k : Nat) (l : List (Nat × Rec)) (s : St) :
    (l.foldl (fun s e => arrive c s k e.2) s).now = s.now ∧ (l.foldl (fun s e => arrive c s k e.2) s).raised = s.raised := by
  induction l generalizing s with
  | nil => exact ⟨rfl, rfl⟩
  | cons a t ih =>
    simp only [List.foldl_cons, ih, arrive_now, arrive_raised, and_self]

theorem fold_recs {c : Cfg} {k : Nat} {l : List (Nat × Rec)} {s : St} {x : Rec}
    (h : Recs (l.foldl (fun s e => arrive c s k e.2) s) x) :
    Recs s x ∨ ∃ e ∈ l, ∃ g, c.stages[k]? = some g ∧ x = filt c s.now g e.2 := by
  induction l generalizing s with
  | nil => exact Or.inl h
  | cons a t ih =>
    rcases ih h with h | ⟨e, he, g, hg, hx⟩
    · rcases arrive_recs h with h | ⟨g, hg, hx⟩
      · exact Or.inl h
      · exact Or.inr ⟨a, by simp, g, hg, hx⟩
    · rw [arrive_now] at hx
      exact Or.inr ⟨e, by simp [he], g, hg, hx⟩

theorem run_snoc (c : Cfg) (evs : List Ev) (e : Ev) : run c (evs ++ [e]) = step c (run c evs) e := by
  simp [run]

theorem timeAt_snoc (evs : List Ev) (e : Ev) :
    timeAt (evs ++ [e]) = match e with | .time t => t | _ => timeAt evs := by
  cases e <;> simp [timeAt]

/-- A record that was just made. -/
def made (c : Cfg) (now : Option Nat) (m : Msg) : Rec := if c.plugin then pyFilter c.isSim now { msg := m } else { msg := m }

theorem run_now (c : Cfg) (evs : List Ev) : (run c evs).now = timeAt evs := by
  induction evs using List.reverseRecOn with
  | nil => rfl
  | append_singleton evs e ih =>
    rw [run_snoc, timeAt_snoc]
    cases e with
    | time t => rfl
    | log m ex =>
      simp only [step]
      split
      · exact ih
      · rw [arrive_now]; exact ih
    | pass k =>
      simp only [step]
      rw [(fold_now c _ _ _).1]
      exact ih

theorem loggedAt_snoc {evs : List Ev} {m : Msg} {t : Option Nat} (h : LoggedAt evs m t) (e : Ev) : LoggedAt (evs ++ [e]) m t := by
  obtain ⟨pre, ex, post, h1, h2⟩ := h
  exact ⟨pre, ex, post ++ [e], by simp [h1], h2⟩

/-- What is true of new records behind the first handler, and stays true behind all others, is true of all records. -/
theorem inv {c : Cfg} {P : Rec → Option Nat → Prop}
    (h0 : ∀ g m t, c.stages[0]? = some g → P (filt c t g (made c t m)) t)
    (h1 : ∀ k g r t now, c.stages[k + 1]? = some g → P r t → P (filt c now g r) t)
    (hm : ∀ g r now, (filt c now g r).msg = r.msg) (hd : ∀ m t, (made c t m).msg = m) (evs : List Ev) :
    ∀ r, Recs (run c evs) r → ∃ t, LoggedAt evs r.msg t ∧ P r t := by
  induction evs using List.reverseRecOn with
  | nil => intro r h; rcases h with h | ⟨k, h⟩ <;> cases h
  | append_singleton evs e ih =>
    intro r h
    rw [run_snoc] at h
    have old : Recs (run c evs) r → ∃ t, LoggedAt (evs ++ [e]) r.msg t ∧ P r t := by
      intro h
      obtain ⟨t, a, b⟩ := ih r h
      exact ⟨t, loggedAt_snoc a e, b⟩
    cases e with
    | time t => exact old h
    | log m ex =>
      simp only [step] at h
      split at h
      · exact old h
      · rcases arrive_recs h with h | ⟨g, hg, hx⟩
        · exact old h
        · refine ⟨timeAt evs, ⟨evs, ex, [], ?_, rfl⟩, ?_⟩
          · rw [hx, hm]
            have := hd m (run c evs).now
            unfold made at this
            rw [this]
          · rw [hx, run_now]
            exact h0 g m _ hg
    | pass k =>
      simp only [step] at h
      rcases fold_recs h with h | ⟨x, hx, g, hg, hr⟩
      · refine old ?_
        rcases h with h | ⟨j, h⟩
        · exact Or.inl h
        · exact Or.inr ⟨j, (List.mem_filter.1 h).1⟩
      · obtain ⟨t, a, b⟩ := ih x.2 (Or.inr ⟨x.1, (List.mem_filter.1 hx).1⟩)
        refine ⟨t, ?_, ?_⟩
        · rw [hr, hm]; exact loggedAt_snoc a _
        · rw [hr]; exact h1 k g _ t _ hg b

theorem filt_msg (c : Cfg) (g : Stage) (r : Rec) (now : Option Nat) : (filt c now g r).msg = r.msg := by
  unfold filt ctxFilter pyFilter
  dsimp only
  repeat' split
  all_goals rfl

theorem made_msg (c : Cfg) (m : Msg) (t : Option Nat) : (made c t m).msg = m := by
  unfold made pyFilter
  repeat' split
  all_goals rfl

/-- How often message `m` has been written, is kept or raised. -/
def cnt (s : St) (m : Msg) : Nat := s.out.countP (·.msg == m) + s.wait.countP (·.2.msg == m) + s.raised.count m

theorem arrive_cnt {c : Cfg} {s : St} {k : Nat} (r : Rec) (hk : k < c.stages.length)
    (hw : ∀ e ∈ s.wait, e.1 + 1 < c.stages.length) (m : Msg) :
    cnt (arrive c s k r) m = cnt s m + [r].countP (·.msg == m) ∧ ∀ e ∈ (arrive c s k r).wait, e.1 + 1 < c.stages.length := by
  have hm : ∀ (g : Stage) now, ((if (c.plugin && g.py) = true then pyFilter c.isSim now (if g.ctx = true then ctxFilter now r else r)
      else (if g.ctx = true then ctxFilter now r else r)) : Rec).msg = r.msg := fun g now => filt_msg c g r now
  unfold arrive
  rw [List.getElem?_eq_getElem hk]
  simp only
  split
  · refine ⟨?_, hw⟩
    simp only [cnt, List.countP_append, List.countP_cons, List.countP_nil, hm]
    omega
  · refine ⟨?_, ?_⟩
    · simp only [cnt, List.countP_append, List.countP_cons, List.countP_nil, hm]
      omega
    · intro e he
      simp only [List.mem_append, List.mem_singleton] at he
      rcases he with he | rfl
      · exact hw e he
      · dsimp only; omega

theorem fold_cnt {c : Cfg} {k : Nat} (hk : k < c.stages.length) (m : Msg) (l : List (Nat × Rec)) (s : St)
    (hw : ∀ e ∈ s.wait, e.1 + 1 < c.stages.length) :
    cnt (l.foldl (fun s e => arrive c s k e.2) s) m = cnt s m + l.countP (·.2.msg == m) ∧
      ∀ e ∈ (l.foldl (fun s e => arrive c s k e.2) s).wait, e.1 + 1 < c.stages.length := by
  induction l generalizing s with
  | nil => exact ⟨by simp, hw⟩
  | cons a t ih =>
    obtain ⟨h1, h2⟩ := arrive_cnt a.2 hk hw m
    obtain ⟨h3, h4⟩ := ih _ h2
    refine ⟨?_, h4⟩
    rw [List.foldl_cons, h3, h1]
    simp only [List.countP_cons, List.countP_nil]
    omega

theorem count_split (k m : Nat) (l : List (Nat × Rec)) :
    (l.filter (·.1 != k)).countP (·.2.msg == m) + (l.filter (·.1 == k)).countP (·.2.msg == m) = l.countP (·.2.msg == m) := by
  induction l with
  | nil => rfl
  | cons a t ih =>
    by_cases h : a.1 = k
    · simp [h, List.countP_cons] at ih ⊢; omega
    · simp [h, List.countP_cons] at ih ⊢; omega

end LogTimeL

open LogTimeL

/-- C179: with the plugin for pytest every message that is written has the time at which it was logged, or none outside of
a simulation, whatever handlers it went through and when. -/
theorem C179_pytest {c : Cfg} (hp : c.plugin = true) (evs : List Ev) {r : Rec} (h : r ∈ (run c evs).out) :
    ∃ t, LoggedAt evs r.msg t ∧ r.simTime = some (if c.isSim then t else none) := by
  refine inv (c := c) (P := fun r t => r.simTime = some (if c.isSim then t else none)) ?_ ?_ ?_ ?_ evs r (Or.inl h)
  · intro g m t hg
    unfold filt made
    cases hc : g.ctx <;> cases hy : g.py <;> simp [hp, pyFilter, ctxFilter]
  · intro k g r t now hg hr
    unfold filt
    cases hc : g.ctx <;> cases hy : g.py <;> simp [hp, pyFilter, ctxFilter, hr]
  · intro g r now; exact filt_msg c g r now
  · intro m t; exact made_msg c m t

example : (run ⟨true, true, [⟨false, true⟩, ⟨true, true⟩]⟩ [.time (some 1), .log 7 [], .time (some 5), .pass 0]).out =
    [⟨7, some (some 5), some (some 1)⟩] := by decide +kernel

/-- C179 for `created_sim_time`, the time cocotb's own formatter shows: if a handler has the filter of cocotb, it is the time
at which the message was logged. -/
def C179_created_full : Prop := ∀ (c : Cfg) (evs : List Ev) (r : Rec), (∃ g ∈ c.stages, g.ctx = true) → r ∈ (run c evs).out →
  ∃ t, LoggedAt evs r.msg t ∧ r.created = some t

/-- A handler keeps a message and gives it to the one with the filter when the time is another one. -/
theorem C179_created_counterexample : ¬ C179_created_full := by
  intro H
  obtain ⟨t, ⟨pre, ex, post, h1, h2⟩, h3⟩ := H ⟨false, true, [⟨false, false⟩, ⟨true, false⟩]⟩
    [.time (some 1), .log 7 [], .time (some 5), .pass 0] ⟨7, some (some 5), none⟩ (by decide +kernel) (by decide +kernel)
  have ht : t = some 5 := by simpa using h3.symm
  subst ht
  rcases pre with _ | ⟨a, _ | ⟨b, _ | ⟨d, _ | ⟨e, pre⟩⟩⟩⟩
  · simp at h1
  · simp only [List.cons_append, List.nil_append, List.cons.injEq] at h1
    obtain ⟨rfl, _⟩ := h1
    revert h2; decide +kernel
  · simp at h1
  · simp at h1
  · simp at h1

/-- C179, partial (the full claim is false of the code): it is, if the first handler is the only one with the filter. -/
theorem C179_created_partial {c : Cfg} {g : Stage} {rest : List Stage} (hs : c.stages = g :: rest) (hg : g.ctx = true)
    (hr : ∀ g ∈ rest, g.ctx = false) (evs : List Ev) {r : Rec} (h : r ∈ (run c evs).out) :
    ∃ t, LoggedAt evs r.msg t ∧ r.created = some t := by
  refine inv (c := c) (P := fun r t => r.created = some t) ?_ ?_ ?_ ?_ evs r (Or.inl h)
  · intro g' m t hg'
    rw [hs] at hg'
    cases hg'
    unfold filt
    rw [hg]
    simp only [if_true]
    split
    · unfold pyFilter; split <;> rfl
    · rfl
  · intro k g' r t now hg' hrt
    rw [hs] at hg'
    have := hr g' (List.mem_of_getElem? (by simpa using hg'))
    unfold filt
    rw [this]
    simp only [Bool.false_eq_true, if_false]
    split
    · unfold pyFilter; split <;> exact hrt
    · exact hrt
  · intro g r now; exact filt_msg c g r now
  · intro m t; exact made_msg c m t

example : (run ⟨false, true, [⟨true, false⟩, ⟨false, false⟩]⟩ [.time (some 1), .log 7 [], .time (some 5), .pass 0]).out =
    [⟨7, some (some 1), none⟩] := by decide +kernel

/-- C179: a handler that writes at once writes all messages, in their order, each with the time at which it was logged. -/
theorem C179_direct (isSim py : Bool) (evs : List Ev) :
    (run ⟨false, isSim, [⟨true, py⟩]⟩ evs).out.map (fun r => (r.msg, r.created)) =
      (logged none evs).map fun e => (e.1, some e.2) := by
  have key : ∀ (evs : List Ev) (s : St), s.wait = [] →
      (evs.foldl (step ⟨false, isSim, [⟨true, py⟩]⟩) s).out.map (fun r => (r.msg, r.created)) =
        s.out.map (fun r => (r.msg, r.created)) ++ (logged s.now evs).map fun e => (e.1, some e.2) := by
    intro evs
    induction evs with
    | nil => intro s _; simp [logged]
    | cons e t ih =>
      intro s hw
      rw [List.foldl_cons]
      cases e with
      | time x => rw [ih _ (by simpa [step] using hw)]; simp [step, logged]
      | log m ex =>
        rw [ih _ (by simpa [step, arrive] using hw)]
        simp [step, logged, arrive, ctxFilter]
      | pass k => rw [ih _ (by simp [step, hw])]; simp [step, logged, hw]
  exact key evs {} rfl

example : logged none [.time (some 3), .log 1 [], .log 2 [], .time (some 4), .log 1 []] =
    [(1, some 3), (2, some 3), (1, some 4)] := by decide +kernel

/-- C179: no message gets lost or is written twice: each one that was logged has been written, is kept by one handler, or its
call raised. -/
theorem C179_once {c : Cfg} (hs : c.stages ≠ []) (evs : List Ev) (m : Msg) :
    (run c evs).out.countP (·.msg == m) + (run c evs).wait.countP (·.2.msg == m) + (run c evs).raised.count m =
      (logged none evs).countP (·.1 == m) := by
  have hl : ∀ (evs : List Ev) now e, (logged now (evs ++ [e])).countP (·.1 == m) =
      (logged now evs).countP (·.1 == m) + match e with | .log x _ => [x].count m | _ => 0 := by
    intro evs
    induction evs with
    | nil => intro now e; cases e <;> simp [logged, List.count_singleton, List.countP_cons]
    | cons a t ih => intro now e; cases a <;> simp [logged, ih, List.countP_cons] <;> omega
  have hpos : 0 < c.stages.length := List.length_pos_iff.2 hs
  have key : cnt (run c evs) m = (logged none evs).countP (·.1 == m) ∧ ∀ e ∈ (run c evs).wait, e.1 + 1 < c.stages.length := by
    induction evs using List.reverseRecOn with
    | nil => exact ⟨rfl, fun e he => by cases he⟩
    | append_singleton evs e ih =>
      obtain ⟨h1, h2⟩ := ih
      rw [run_snoc, hl]
      cases e with
      | time t => exact ⟨h1, h2⟩
      | log x ex =>
        simp only [step]
        split
        · refine ⟨?_, h2⟩
          rw [← h1]
          simp only [cnt, List.count_append]
          omega
        · obtain ⟨h3, h4⟩ := arrive_cnt (made c (run c evs).now x) hpos h2 m
          refine ⟨?_, h4⟩
          rw [← h1]
          refine h3.trans ?_
          simp only [List.countP_cons, List.countP_nil, made_msg, List.count_cons, List.count_nil]
      | pass k =>
        simp only [step]
        have h5 : ∀ e ∈ (run c evs).wait.filter (·.1 != k), e.1 + 1 < c.stages.length :=
          fun e he => h2 e (List.mem_filter.1 he).1
        have h6 := count_split k m (run c evs).wait
        by_cases hk : k + 1 < c.stages.length
        · obtain ⟨h3, h4⟩ := fold_cnt hk m ((run c evs).wait.filter (·.1 == k))
            { run c evs with wait := (run c evs).wait.filter (·.1 != k) } h5
          refine ⟨?_, h4⟩
          rw [h3, ← h1]
          simp only [cnt]
          omega
        · have : (run c evs).wait.filter (·.1 == k) = [] := by
            rw [List.filter_eq_nil_iff]
            intro e he hek
            have := h2 e he
            have : e.1 = k := by simpa using hek
            omega
          rw [this] at h6 ⊢
          refine ⟨?_, h5⟩
          rw [← h1]
          simp only [List.foldl_nil, cnt]
          simp only [List.countP_nil] at h6
          omega
  exact key.1

example : ((run ⟨true, true, [⟨true, true⟩, ⟨true, true⟩]⟩ [.log 7 [], .pass 0, .log 7 [], .pass 0, .log 7 []]).out.map (·.msg),
    (run ⟨true, true, [⟨true, true⟩, ⟨true, true⟩]⟩ [.log 7 [], .pass 0, .log 7 [], .pass 0, .log 7 []]).wait.map (·.2.msg)) =
    ([7, 7], [7]) := by decide +kernel

/-- C179: messages can be logged with extra attributes (other than those of every record, which the Python documentation
excludes) with the plugin as without. -/
def C179_extra_full : Prop := ∀ (c : Cfg) (evs : List Ev), (run c evs).raised = []

/-- With the plugin an extra attribute `sim_time` is a KeyError, although the filter is ready for records that have one. -/
theorem C179_extra_counterexample : ¬ C179_extra_full := by
  intro H
  have := H ⟨true, true, [⟨false, true⟩]⟩ [.log 7 ["sim_time"]]
  revert this
  decide +kernel

/-- C179, partial (the full claim is false of the code): a call raises exactly if the plugin is there and there is an extra
attribute of one of the three names. -/
theorem C179_extra_partial (c : Cfg) (evs : List Ev) (m : Msg) : m ∈ (run c evs).raised ↔
    c.plugin = true ∧ ∃ extra, Ev.log m extra ∈ evs ∧
      ("sim_time" ∈ extra ∨ "sim_time_unit" ∈ extra ∨ "sim_time_str" ∈ extra) := by
  have ha : ∀ ex : List String, ex.any pyAttrs.contains = true ↔
      ("sim_time" ∈ ex ∨ "sim_time_unit" ∈ ex ∨ "sim_time_str" ∈ ex) := by
    intro ex
    simp only [List.any_eq_true, pyAttrs, List.contains_iff_mem, List.mem_cons, List.not_mem_nil, or_false]
    constructor
    · rintro ⟨x, hx, rfl | rfl | rfl⟩ <;> simp [hx]
    · rintro (h | h | h) <;> exact ⟨_, h, by simp⟩
  induction evs using List.reverseRecOn with
  | nil => simp [run]
  | append_singleton evs e ih =>
    rw [run_snoc]
    cases e with
    | time t => simpa [step] using ih
    | pass k =>
      simp only [step]
      rw [(fold_now c _ _ _).2]
      simpa using ih
    | log m' ex =>
      simp only [step, List.mem_append, List.mem_singleton, Ev.log.injEq]
      split
      · rename_i hc
        rw [Bool.and_eq_true] at hc
        simp only [List.mem_append, List.mem_singleton, ih]
        constructor
        · rintro (⟨h1, x, h2, h3⟩ | rfl)
          · exact ⟨h1, x, Or.inl h2, h3⟩
          · exact ⟨hc.1, ex, Or.inr ⟨rfl, rfl⟩, (ha ex).1 hc.2⟩
        · rintro ⟨h1, x, h2 | ⟨rfl, rfl⟩, h3⟩
          · exact Or.inl ⟨h1, x, h2, h3⟩
          · exact Or.inr rfl
      · rename_i hc
        rw [arrive_raised]
        refine ih.trans ?_
        constructor
        · rintro ⟨h1, x, h2, h3⟩
          exact ⟨h1, x, Or.inl h2, h3⟩
        · rintro ⟨h1, x, h2 | ⟨rfl, rfl⟩, h3⟩
          · exact ⟨h1, x, h2, h3⟩
          · exact absurd (by rw [Bool.and_eq_true]; exact ⟨h1, (ha x).2 h3⟩) hc

example : (7 : Nat) ∈ (run ⟨true, true, []⟩ [.log 7 ["a", "sim_time_str"]]).raised := by decide +kernel

/-- C179: the time in a message is that of the record in the unit, to the nearest hundredth. -/
theorem C179_text {prec e : Int} {unit : String} {r : Rec} {t : Nat} (hr : r.created = some (some t))
    (hu : SimTime.logTimeScale unit = .ok e) (hn : unit ≠ "step") :
    ∃ text x, simtimeFmt prec unit r = .ok (text ++ unit.toList) ∧ Shows text x ∧
      |x - t * (10 : ℚ) ^ (prec - e)| ≤ 1 / 200 := by
  have hq : SimTime.ldexp10 (t : ℚ) (prec - e) = t * (10 : ℚ) ^ (prec - e) := ldexp10_eq _ _
  have h0 : (0 : ℚ) ≤ t * (10 : ℚ) ^ (prec - e) := by positivity
  obtain ⟨h1, _⟩ := pyRound_spec (t * (10 : ℚ) ^ (prec - e) * 100)
  generalize hQ : (t : ℚ) * (10 : ℚ) ^ (prec - e) = q at *
  generalize hz : SimTime.pyRound (q * 100) = z at h1
  have hz0 : 0 ≤ z := by
    have : (-1 : ℚ) < z := by
      have := (abs_le.1 h1).2
      linarith
    have : (-1 : ℤ) < z := by exact_mod_cast this
    omega
  obtain ⟨n, rfl⟩ := Int.eq_ofNat_of_zero_le hz0
  refine ⟨fmt2 q, (n : ℚ) / 100, ?_, ⟨n / 100, n % 100 / 10, n % 10, by omega, by omega, ?_, ?_⟩, ?_⟩
  · simp only [simtimeFmt, hr, Option.join_some, SimTime.timeFromSimSteps, hn, if_false, hu]
    rw [show ((t : ℕ) : ℚ) = (t : ℚ) from rfl, hq]
  · unfold fmt2
    rw [hz]
    simp
  · have : n = 100 * (n / 100) + 10 * (n % 100 / 10) + n % 10 := by omega
    have : (n : ℚ) = 100 * (n / 100 : ℕ) + 10 * (n % 100 / 10 : ℕ) + (n % 10 : ℕ) := by exact_mod_cast this
    rw [this]
    ring
  · rw [abs_le] at h1 ⊢
    push_cast at h1
    constructor <;> linarith [h1.1, h1.2]

/-- 1234567 ps in ns. -/
example : simtimeFmt (-12) "ns" ⟨0, some (some 1234567), none⟩ = .ok "1234.57ns".toList := by decide +kernel

/-- C179: exactly the messages whose time is not known show `-.--`. -/
theorem C179_unknown {prec e : Int} {unit : String} {r : Rec} (hu : SimTime.logTimeScale unit = .ok e) (hn : unit ≠ "step") :
    simtimeFmt prec unit r = .ok (['-', '.', '-', '-'] ++ unit.toList) ↔ ¬ ∃ t, r.created = some (some t) := by
  constructor
  · rintro h ⟨t, ht⟩
    obtain ⟨text, x, h1, ⟨i, a, b, ha, hb, h2, _⟩, _⟩ := C179_text (prec := prec) ht hu hn
    rw [h1] at h
    have h3 : text = ['-', '.', '-', '-'] := List.append_cancel_right (Except.ok.inj h)
    rw [h2] at h3
    have h4 := congrArg List.getLast? h3
    have h5 : Nat.digitChar b = '-' := by simpa using h4
    revert h5
    have : ∀ b < 10, Nat.digitChar b ≠ '-' := by decide +kernel
    exact this b hb
  · intro h
    have hj : r.created.join = none := by
      rcases hc : r.created with _ | _ | t
      · rfl
      · rfl
      · exact absurd ⟨t, hc⟩ h
    unfold simtimeFmt
    rw [hj]
    rfl

example : ¬ ∃ t, (⟨7, some none, none⟩ : Rec).created = some (some t) := by simp

end Verif
