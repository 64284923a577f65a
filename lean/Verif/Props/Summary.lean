import Verif.Spec.Summary
import Verif.Lemmas.Log
import Verif.Lemmas.RunnerText
import Verif.Props.Regression
/-!
# C145, C146: the summaries at the end of a regression
-/
namespace Verif
open Summary SummarySpec Log

namespace Summary

theorem dropWhile_blanks (n : Nat) (t : Text) : (List.replicate n 32 ++ t).dropWhile (· == 32) = t.dropWhile (· == 32) := by
  induction n with
  | zero => simp
  | succ n ih => simp [List.replicate_succ, ih]

theorem trim_pad (i j : Nat) (t : Text) : trim (List.replicate i 32 ++ t ++ List.replicate j 32) = trim t := by
  unfold trim
  rw [List.append_assoc, dropWhile_blanks]
  have : (t ++ List.replicate j 32).dropWhile (· == 32) = if t.dropWhile (· == 32) = [] then [] else t.dropWhile (· == 32) ++ List.replicate j 32 := by
    induction t with
    | nil => simpa using dropWhile_blanks j []
    | cons c t ih =>
      by_cases h : c = 32
      · simp [h, ih]
      · simp [h]
  rw [this]
  split
  · rename_i h; rw [h]
  · rw [List.reverse_append, List.reverse_replicate, dropWhile_blanks]

theorem trim_padRight (t : Text) (n : Nat) : trim (padRight t n) = trim t := by
  have := trim_pad 0 (n - t.length) t
  simpa [padRight] using this

theorem trim_padLeft (t : Text) (n j : Nat) : trim (padLeft t n ++ List.replicate j 32) = trim t := by
  have := trim_pad (n - t.length) j t
  simpa [padLeft] using this

theorem trim_center (t : Text) (n : Nat) : trim (center t n) = trim t := trim_pad _ _ t

theorem padRight_length (t : Text) (n : Nat) (h : t.length ≤ n) : (padRight t n).length = n := by simp [padRight]; omega
theorem padLeft_length (t : Text) (n : Nat) (h : t.length ≤ n) : (padLeft t n).length = n := by simp [padLeft]; omega
theorem center_length (t : Text) (n : Nat) (h : t.length ≤ n) : (center t n).length = n := by simp [center]; omega

/-- Reading a line of fields by columns. -/
theorem columns_fields (w : Nat) (f0 a s1 b s2 c s3 d s4 e s5 : Text) (h0 : f0.length = 3) (ha : a.length = w) (h1 : s1.length = 2)
    (hb : b.length = 6) (h2 : s2.length = 2) (hc : c.length = 13) (h3 : s3.length = 2) (hd : d.length = 13) (h4 : s4.length = 2)
    (he : e.length = 12) :
    columns w (f0 ++ a ++ s1 ++ b ++ s2 ++ c ++ s3 ++ d ++ s4 ++ e ++ s5) = [trim a, trim b, trim c, trim d, trim e] := by
  have key : ∀ (x y z : Text) (p n : Nat), x.length = p → y.length = n → column p n (x ++ y ++ z) = trim y := by
    intro x y z p n hx hy
    subst hx hy
    simp [column]
  have k1 := key f0 a (s1 ++ b ++ s2 ++ c ++ s3 ++ d ++ s4 ++ e ++ s5) 3 w h0 ha
  have k2 := key (f0 ++ a ++ s1) b (s2 ++ c ++ s3 ++ d ++ s4 ++ e ++ s5) (w + 5) 6 (by simp only [List.length_append]; omega) hb
  have k3 := key (f0 ++ a ++ s1 ++ b ++ s2) c (s3 ++ d ++ s4 ++ e ++ s5) (w + 13) 13 (by simp only [List.length_append]; omega) hc
  have k4 := key (f0 ++ a ++ s1 ++ b ++ s2 ++ c ++ s3) d (s4 ++ e ++ s5) (w + 28) 13 (by simp only [List.length_append]; omega) hd
  have k5 := key (f0 ++ a ++ s1 ++ b ++ s2 ++ c ++ s3 ++ d ++ s4) e s5 (w + 43) 12 (by simp only [List.length_append]; omega) he
  simp only [List.append_assoc] at k1 k2 k3 k4 k5
  simp only [columns, List.append_assoc, k1, k2, k3, k4, k5]

/-- A line, read by columns. -/
theorem testLine_columns (w : Nat) (a b : Text) (t : Times) (ha : a.length ≤ w) (hb : b.length ≤ 6) (ht : Fit t) (hpa : Plain a) (hpb : Plain b) :
    (testLine w a [] b [] t).length = w + 58 ∧ columns w (testLine w a [] b [] t) = [a, b, t.sim, t.real, t.ratio] := by
  obtain ⟨h1, h2, h3, h4, h5, h6⟩ := ht
  have hl : testLine w a [] b [] t = lit "** " ++ padRight a w ++ lit "  " ++ center b 6 ++ lit "  " ++ (padLeft t.sim 12 ++ List.replicate 1 32) ++
      lit "  " ++ (padLeft t.real 12 ++ List.replicate 1 32) ++ lit "  " ++ (padLeft t.ratio 11 ++ List.replicate 1 32) ++ lit " **" := by
    simp [testLine, lit]
  constructor
  · rw [hl]
    simp only [List.length_append, padRight_length a w ha, center_length b 6 hb, padLeft_length _ _ h4, padLeft_length _ _ h5, padLeft_length _ _ h6,
      List.length_replicate]
    have : (lit "** ").length = 3 ∧ (lit "  ").length = 2 ∧ (lit " **").length = 3 := by decide
    omega
  · rw [hl, columns_fields w _ _ _ _ _ _ _ _ _ _ _ (by decide) (padRight_length a w ha) (by decide) (center_length b 6 hb) (by decide)
      (by simp [padLeft_length _ _ h4]) (by decide) (by simp [padLeft_length _ _ h5]) (by decide) (by simp [padLeft_length _ _ h6]),
      trim_padRight, trim_center, trim_padLeft, trim_padLeft, trim_padLeft, hpa.1, hpb.1, h1.1, h2.1, h3.1]

theorem headerLine_columns (w : Nat) (hw : 4 ≤ w) : (headerLine w).length = w + 58 ∧
    columns w (headerLine w) = ["TEST", "STATUS", "SIM TIME (ns)", "REAL TIME (s)", "RATIO (ns/s)"].map lit := by
  have h1 : (padRight (lit "TEST") w).length = w := padRight_length _ _ hw
  constructor
  · simp only [headerLine, List.length_append, h1]
    have : (lit "** ").length = 3 ∧ (lit "  ").length = 2 ∧ (lit " **").length = 3 ∧ (center (lit "STATUS") 6).length = 6 ∧
      (padLeft (lit "SIM TIME (ns)") 13).length = 13 ∧ (padLeft (lit "REAL TIME (s)") 13).length = 13 ∧
      (padLeft (lit "RATIO (ns/s)") 12).length = 12 := by decide
    omega
  · unfold headerLine
    rw [columns_fields w _ _ _ _ _ _ _ _ _ _ _ (by decide) h1 (by decide) (by decide) (by decide) (by decide) (by decide) (by decide) (by decide) (by decide),
      trim_padRight]
    decide

theorem not_mem_pads (t : Text) (h : 27 ∉ t) (n : Nat) : 27 ∉ padRight t n ∧ 27 ∉ padLeft t n ∧ 27 ∉ center t n := by
  simp [padRight, padLeft, center, h, List.mem_replicate]

/-- Colours are not seen. -/
theorem testLine_shows (w : Nat) (a b : Text) (t : Times) (ht : Fit t) (hpa : Plain a) (hpb : Plain b) (start stop : Text) (h1 : Shows start [])
    (h2 : Shows stop []) : Shows (testLine w a start b stop t) (testLine w a [] b [] t) := by
  obtain ⟨g1, g2, g3, -⟩ := ht
  unfold testLine
  have hp : ∀ x : Text, 27 ∉ x → Shows x x := fun x h => Shows.plain h
  have l1 : ∀ s ∈ ["** ", "  ", "   ", "  **"], 27 ∉ lit s := by decide
  have q (x) (h : x ∈ ["** ", "  ", "   ", "  **"]) : Shows (lit x) (lit x) := hp _ (l1 x h)
  exact (((((((((((((q "** " (by simp)).append (hp _ (not_mem_pads a hpa.2 w).1)).append (q "  " (by simp))).append h1).append
    (hp _ (not_mem_pads b hpb.2 6).2.2)).append h2).append (q "  " (by simp))).append (hp _ (not_mem_pads _ g1.2 12).2.1)).append
    (q "   " (by simp))).append (hp _ (not_mem_pads _ g2.2 12).2.1)).append (q "   " (by simp))).append
    (hp _ (not_mem_pads _ g3.2 11).2.1)).append (q "  **" (by simp)))

theorem maxLen_le (l : List Text) : ∀ t ∈ l, t.length ≤ maxLen l := by
  have : ∀ (l : List Text) (m : Nat), m ≤ l.foldl (fun m t => max m t.length) m ∧ ∀ t ∈ l, t.length ≤ l.foldl (fun m t => max m t.length) m := by
    intro l
    induction l with
    | nil => intro m; simp
    | cons x l ih =>
      intro m
      obtain ⟨h1, h2⟩ := ih (max m x.length)
      simp only [List.foldl_cons, List.mem_cons]
      refine ⟨by omega, ?_⟩
      rintro t (rfl | ht)
      · omega
      · exact h2 t ht
  exact (this l 0).2


theorem trim_id (t : Text) (h1 : t.head? ≠ some 32) (h2 : t.getLast? ≠ some 32) : trim t = t := by
  have k : ∀ l : Text, l.head? ≠ some 32 → l.dropWhile (· == 32) = l := by
    intro l hl
    cases l with
    | nil => rfl
    | cons c l =>
      simp only [List.head?_cons, ne_eq, Option.some.injEq] at hl
      simp [hl]
  unfold trim
  rw [k t h1, k t.reverse (by rw [List.head?_reverse]; exact h2), List.reverse_reverse]

theorem statusText_word (o : Reg.Outcome) : statusText o = lit (word o) := by cases o <;> rfl

theorem word_plain (o : Reg.Outcome) : Plain (lit (word o)) ∧ (lit (word o)).length ≤ 6 := by
  unfold Plain
  cases o <;> decide

theorem plain_nil : Plain [] := by unfold Plain; decide
theorem plain_dash : Plain (lit "-.--") ∧ (lit "-.--").length ≤ 11 := by unfold Plain; decide

theorem colour_shows (o : Reg.Outcome) : Shows (colour o) [] := by
  cases o <;> exact Shows.sgr (by omega) (by omega)

theorem fit_ratio (o : Reg.Outcome) (t : Times) (h : Fit t) : Fit { t with ratio := ratioText o t } := by
  obtain ⟨h1, h2, h3, h4, h5, h6⟩ := h
  cases o
  case skip => exact ⟨h1, h2, plain_dash.1, h4, h5, plain_dash.2⟩
  all_goals exact ⟨h1, h2, h3, h4, h5, h6⟩

theorem zip_append_mem {α β : Type} {a c : List α} {b d : List β} (h : a.length = b.length) {p : α × β} (hp : p ∈ (a ++ c).zip (b ++ d)) :
    p ∈ a.zip b ∨ p ∈ c.zip d := by
  rw [List.zip_append h] at hp
  exact List.mem_append.mp hp

theorem Screen.append {a b c d : List Text} (h : Screen a b) (h' : Screen c d) : Screen (a ++ c) (b ++ d) := by
  refine ⟨by simp [h.1, h'.1], ?_⟩
  intro p hp
  rcases zip_append_mem h.1 hp with hp | hp
  · exact h.2 p hp
  · exact h'.2 p hp

theorem Screen.one {a b : Text} (h : Shows a b) : Screen [a] [b] := ⟨rfl, by simpa using h⟩

theorem Screen.map {α : Type} (l : List α) (f g : α → Text) (h : ∀ x ∈ l, Shows (f x) (g x)) : Screen (l.map f) (l.map g) := by
  refine ⟨by simp, ?_⟩
  intro p hp
  rw [List.zip_map', List.mem_map] at hp
  obtain ⟨x, hx, rfl⟩ := hp
  exact h x hx

/-! No test counts as an expected failure unless the results distinguish them. -/

section
open Reg

theorem score_noXfail {W : World} (hW : W.xfailInResults = false) (t : Test) (exc : Option Exc) (s : RM W) (h : ∀ p ∈ s.results, p.2 ≠ Reg.Outcome.xfail) :
    ∀ p ∈ (scoreTest t exc s).results, p.2 ≠ Reg.Outcome.xfail := by
  have hf : ∀ p ∈ (recordFailed t s).results, p.2 ≠ Reg.Outcome.xfail := by
    unfold recordFailed limitFailures
    split <;> (intro p hp; simp only [addFailed, List.mem_append, List.mem_singleton] at hp; rcases hp with hp | rfl; exact h p hp; simp)
  have hp' : ∀ p ∈ (recordPassed t s).results, p.2 ≠ Reg.Outcome.xfail := by
    intro p hp; simp only [recordPassed, List.mem_append, List.mem_singleton] at hp; rcases hp with hp | rfl; exact h p hp; simp
  have hx : ∀ p ∈ (recordXfail t s).results, p.2 ≠ Reg.Outcome.xfail := by
    unfold recordXfail
    rw [hW]
    exact hp'
  have hs : ∀ p ∈ (recordSkipped t s).results, p.2 ≠ Reg.Outcome.xfail := by
    intro p hp; simp only [recordSkipped, List.mem_append, List.mem_singleton] at hp; rcases hp with hp | rfl; exact h p hp; simp
  unfold scoreTest
  split
  · repeat' split
    all_goals first | exact hs | exact hx | exact hp' | exact hf
  · repeat' split
    all_goals first | exact hs | exact hx | exact hp' | exact hf

theorem execute_noXfail {W : World} (hW : W.xfailInResults = false) (q : List Test) : ∀ s : RM W, (∀ p ∈ s.results, p.2 ≠ Reg.Outcome.xfail) →
    ∀ p ∈ (execute q s).results, p.2 ≠ Reg.Outcome.xfail := by
  induction q with
  | nil => intro s h; unfold execute tearDown; split <;> exact h
  | cons t q ih =>
    intro s h
    unfold execute
    split
    · apply ih
      intro p hp; simp only [recordSkipped, take, List.mem_append, List.mem_singleton] at hp; rcases hp with hp | rfl; exact h p hp; simp
    · split
      · exact ih _ (score_noXfail hW _ _ _ h)
      · split
        · unfold launch scheduleNext
          split
          · exact h
          · exact h
        · apply ih
          intro p hp; simp only [recordInitFailed, take, List.mem_append, List.mem_singleton] at hp; rcases hp with hp | rfl; exact h p hp; simp

theorem complete_noXfail {W : World} (hW : W.xfailInResults = false) (exc : Option Exc) (s : RM W) (h : ∀ p ∈ s.results, p.2 ≠ Reg.Outcome.xfail) :
    ∀ p ∈ (testComplete exc s).results, p.2 ≠ Reg.Outcome.xfail := by
  unfold testComplete
  split
  · exact execute_noXfail hW _ _ (score_noXfail hW _ _ _ h)
  · exact h

theorem step_noXfail {W : World} (hW : W.xfailInResults = false) (ev : Ev W) (s : RM W) (h : ∀ p ∈ s.results, p.2 ≠ Reg.Outcome.xfail) :
    ∀ p ∈ (step ev s).results, p.2 ≠ Reg.Outcome.xfail := by
  unfold step
  cases ev with
  | timer =>
    dsimp only
    split
    · unfold scheduleNext
      split <;> exact h
    · exact h
  | complete exc =>
    dsimp only
    split
    · exact complete_noXfail hW _ _ h
    · exact h
  | use r x => dsimp only; split <;> exact h
  | simEnd =>
    dsimp only
    unfold simEnd
    repeat' split
    · exact h
    · exact h
    · exact complete_noXfail hW _ _ h
    · exact h

theorem regression_noXfail {W : World} (hW : W.xfailInResults = false) (shuffle : List Test → List Test) (filters : List (PyStr → Bool))
    (tests : List Test) (r x : W.Rng) (evs : List (Ev W)) :
    ∀ p ∈ (regression W shuffle filters tests r x evs).results, p.2 ≠ Reg.Outcome.xfail := by
  have : ∀ (evs : List (Ev W)) (s : RM W), (∀ p ∈ s.results, p.2 ≠ Reg.Outcome.xfail) → ∀ p ∈ (steps evs s).results, p.2 ≠ Reg.Outcome.xfail := by
    intro evs
    induction evs with
    | nil => intro s h; exact h
    | cons ev evs ih => intro s h; exact ih _ (step_noXfail hW ev s h)
  exact this evs _ (execute_noXfail hW _ _ (by intro p hp; simp [RM.init] at hp))

end

/-! ## pytest -/

theorem keys_aux (rs : List Report) : ∀ ks : List Category, ks.Nodup →
    (rs.foldl (fun ks r => if category r ∈ ks then ks else ks ++ [category r]) ks).Nodup ∧
    ∀ k, k ∈ rs.foldl (fun ks r => if category r ∈ ks then ks else ks ++ [category r]) ks ↔ k ∈ ks ∨ ∃ r ∈ rs, category r = k := by
  induction rs with
  | nil => intro ks h; simp [h]
  | cons r rs ih =>
    intro ks h
    simp only [List.foldl_cons]
    split
    · rename_i hm
      refine ⟨(ih ks h).1, fun k => ?_⟩
      rw [(ih ks h).2]
      grind
    · rename_i hm
      have hn : (ks ++ [category r]).Nodup := by
        rw [List.nodup_append]
        refine ⟨h, by simp, ?_⟩
        intro a ha b hb
        simp only [List.mem_singleton] at hb
        subst hb
        exact fun e => hm (e ▸ ha)
      refine ⟨(ih _ hn).1, fun k => ?_⟩
      rw [(ih _ hn).2]
      grind

theorem keys_nodup (rs : List Report) : (keys rs).Nodup := (keys_aux rs [] (by simp)).1
theorem mem_keys (rs : List Report) (k : Category) : k ∈ keys rs ↔ ∃ r ∈ rs, category r = k := by
  have := (keys_aux rs [] (by simp)).2 k
  simpa [keys] using this

theorem flatMap_one {α β : Type} (l : List α) (f : α → List β) (a : α) (hn : l.Nodup) (ha : a ∈ l) (h : ∀ b ∈ l, b ≠ a → f b = []) :
    l.flatMap f = f a := by
  induction l with
  | nil => simp at ha
  | cons x l ih =>
    rw [List.nodup_cons] at hn
    simp only [List.flatMap_cons]
    by_cases hx : x = a
    · subst hx
      have : l.flatMap f = [] := by
        rw [List.flatMap_eq_nil_iff]
        intro b hb
        exact h b (List.mem_cons_of_mem _ hb) (fun e => hn.1 (e ▸ hb))
      simp [this]
    · rw [h x (List.mem_cons_self ..) hx, List.nil_append]
      exact ih hn.2 (by simpa [Ne.symm hx] using ha) (fun b hb => h b (List.mem_cons_of_mem _ hb))

/-- The rows of one test come from its reports. -/
theorem statuses_rows (rs : List Report) (id : Text) : statuses id (rows rs) = (keys rs).flatMap fun k =>
    match mapStatus k with
    | some st => ((rs.filter fun r => r.nodeid = id).filter fun r => category r = k ∧ r.cocotb).map fun _ => st
    | none => [] := by
  unfold statuses rows
  rw [List.filter_flatMap, List.map_flatMap]
  congr 1
  funext k
  cases mapStatus k with
  | none => rfl
  | some st =>
    simp only [List.filter_map, List.map_map, List.filter_filter]
    have : ((fun r : Text × Status => decide (r.1 = id)) ∘ fun r : Report => (r.nodeid, st)) = fun r => decide (r.nodeid = id) := rfl
    rw [this]
    congr 1
    apply List.filter_congr
    intro r _
    simp [Bool.and_comm]

/-- Counting rows is counting results. -/
theorem showing_count (w : Nat) (o : Reg.Outcome) : ∀ (rows : List Text) (rs : List Result), rows.map (columns w) = rs.map entries →
    showing w (word o) rows = (rs.map (·.outcome)).count o := by
  have hinj : ∀ a b : Reg.Outcome, lit (word a) = lit (word b) ↔ a = b := by intro a b; cases a <;> cases b <;> decide
  intro rows
  induction rows with
  | nil =>
    intro rs h
    cases rs with
    | nil => rfl
    | cons r rs => simp at h
  | cons l rows ih =>
    intro rs h
    cases rs with
    | nil => simp at h
    | cons r rs =>
      simp only [List.map_cons, List.cons.injEq] at h
      have hc : column (w + 5) 6 l = lit (word r.outcome) := by
        have := h.1
        simp only [columns, entries, List.cons.injEq] at this
        exact this.2.1
      have := ih rs h.2
      unfold showing at this ⊢
      simp only [List.countP_cons, List.map_cons, List.count_cons, this, hc, hinj]
      simp

theorem names_of (w : Nat) (rows : List Text) (rs : List Result) (h : rows.map (columns w) = rs.map entries) :
    rows.map (column 3 w) = rs.map (·.name) := by
  have h1 : rows.map (column 3 w) = (rows.map (columns w)).map (fun l => l.headD []) := by simp [columns]
  rw [h1, h, List.map_map]
  simp [entries]

theorem totalName_plain (b : Bool) (t p f s x : Nat) : Plain (totalName b t p f s x) := by
  have hd : ∀ n, 27 ∉ decText n := fun n h => by have := Runner.decText_digit h; omega
  have hl : ∀ (l : Text) n, (l ++ decText n).getLast? ≠ some 32 := by
    intro l n h
    have hne := Runner.decText_ne_nil n
    rw [List.getLast?_append, List.getLast?_eq_some_getLast hne, Option.some_or] at h
    rw [← List.getLast?_eq_some_getLast hne] at h
    have := Runner.decText_digit (List.mem_of_getLast? h)
    omega
  constructor
  · apply trim_id
    · unfold totalName
      have : lit "TESTS=" = 84 :: lit "ESTS=" := by decide
      rw [this]
      simp
    · unfold totalName
      cases b
      · simp only [Bool.false_eq_true, if_false, List.append_nil]
        exact hl _ _
      · simp only [if_true, ← List.append_assoc]
        exact hl _ _
  · have l1 : ∀ s ∈ ["TESTS=", " PASS=", " FAIL=", " SKIP=", " XFAIL="], 27 ∉ lit s := by decide
    have a1 := l1 "TESTS=" (by simp)
    have a2 := l1 " PASS=" (by simp)
    have a3 := l1 " FAIL=" (by simp)
    have a4 := l1 " SKIP=" (by simp)
    have a5 := l1 " XFAIL=" (by simp)
    unfold totalName
    revert a1 a2 a3 a4 a5
    generalize lit "TESTS=" = b1
    generalize lit " PASS=" = b2
    generalize lit " FAIL=" = b3
    generalize lit " SKIP=" = b4
    generalize lit " XFAIL=" = b5
    intro a1 a2 a3 a4 a5
    cases b <;> simp [a1, a2, a3, a4, a5, hd]

end Summary

/-! ## C145 -/

/-- **C145** The summary is a table with lines of equal length, whatever the names and the numbers (as long as those fit in their columns) and
with or without colours: each test that was recorded has its row, in the order of the results, with its name, its status and its numbers, and
the last line has the totals. -/
theorem C145_table (strip : Bool) (results : List Result) (total : Text) (totals : Times) (hne : results ≠ [])
    (hr : ∀ r ∈ results, Plain r.name ∧ Fit r.times) (ht : Plain total) (hf : Fit totals) :
    ∃ w vis rows last, Screen (summary strip results total totals) vis ∧ Table w vis rows last ∧
      rows.map (columns w) = results.map entries ∧ columns w last = [total, [], totals.sim, totals.real, totals.ratio] := by
  let len := max (max 4 total.length) (maxLen (results.map (·.name)))
  let row := fun r : Result => testLine len r.name [] (statusText r.outcome) [] { r.times with ratio := ratioText r.outcome r.times }
  let sep : Text := List.replicate (3 + len + 2 + 6 + 2 + 13 + 2 + 13 + 2 + 12 + 3) 42
  have hlen : ∀ r ∈ results, r.name.length ≤ len := by
    intro r h
    have := maxLen_le (results.map (·.name)) r.name (List.mem_map_of_mem h)
    simp only [len]; omega
  have hrow : ∀ r ∈ results, (row r).length = len + 58 ∧ columns len (row r) = entries r := by
    intro r h
    have hw := word_plain r.outcome
    have := testLine_columns len r.name (statusText r.outcome) _ (hlen r h) (by rw [statusText_word]; exact hw.2) (fit_ratio r.outcome r.times (hr r h).2)
      (hr r h).1 (by rw [statusText_word]; exact hw.1)
    refine ⟨this.1, this.2.trans ?_⟩
    unfold entries
    rw [statusText_word]
    cases r.outcome <;> rfl
  have hlast := testLine_columns len total [] totals (by simp only [len]; omega) (by simp) hf ht plain_nil
  have hhead := headerLine_columns len (by simp only [len]; omega)
  have hsep : Shows sep sep := Shows.plain (by simp [sep, List.mem_replicate])
  have hnum : 3 + len + 2 + 6 + 2 + 13 + 2 + 13 + 2 + 12 + 3 = len + 58 := by omega
  refine ⟨len, [sep, headerLine len, sep] ++ results.map row ++ [sep, testLine len total [] [] [] totals, sep], results.map row,
    testLine len total [] [] [] totals, ?_, ⟨⟨headerLine len, by simp only [sep, hnum], hhead.2⟩, ?_⟩, ?_, hlast.2⟩
  · unfold summary
    rw [if_neg (by simpa using hne)]
    have hh : Shows (headerLine len) (headerLine len) := by
      have hp : ∀ x : Text, 27 ∉ x → Shows x x := fun x h => Shows.plain h
      have l1 : ∀ s ∈ ["** ", "  ", " **"], 27 ∉ lit s := by decide
      have q (x) (h : x ∈ ["** ", "  ", " **"]) : Shows (lit x) (lit x) := hp _ (l1 x h)
      have l2 : 27 ∉ center (lit "STATUS") 6 ∧ 27 ∉ padLeft (lit "SIM TIME (ns)") 13 ∧ 27 ∉ padLeft (lit "REAL TIME (s)") 13 ∧
        27 ∉ padLeft (lit "RATIO (ns/s)") 12 := by decide
      have l3 := (not_mem_pads (lit "TEST") (by decide) len).1
      exact (((((((((((q "** " (by simp)).append (hp _ l3)).append (q "  " (by simp))).append (hp _ l2.1)).append (q "  " (by simp))).append
        (hp _ l2.2.1)).append (q "  " (by simp))).append (hp _ l2.2.2.1)).append (q "  " (by simp))).append (hp _ l2.2.2.2)).append
        (q " **" (by simp)))
    have htot : Shows (testLine len total [] [] [] totals) (testLine len total [] [] [] totals) :=
      testLine_shows len total [] totals hf ht plain_nil [] [] Shows.nil Shows.nil
    refine Screen.append (Screen.append (Screen.append (Screen.one hsep) (Screen.append (Screen.one hh) (Screen.one hsep))) (Screen.map results _ row ?_))
      (Screen.append (Screen.one hsep) (Screen.append (Screen.one htot) (Screen.one hsep)))
    intro r h
    have hw := word_plain r.outcome
    refine testLine_shows len r.name (statusText r.outcome) _ (fit_ratio r.outcome r.times (hr r h).2) (hr r h).1 (by rw [statusText_word]; exact hw.1) _ _ ?_ ?_
    · cases strip
      · exact colour_shows r.outcome
      · exact Shows.nil
    · cases strip
      · exact Shows.ansiDefault
      · exact Shows.nil
  · intro l hl
    simp only [List.mem_append, List.mem_cons, List.not_mem_nil, or_false, List.mem_map] at hl
    rcases hl with ((rfl | rfl | rfl) | ⟨r, h, rfl⟩) | (rfl | rfl | rfl)
    · simp only [sep, List.length_replicate, hnum]
    · exact hhead.1
    · simp only [sep, List.length_replicate, hnum]
    · exact (hrow r h).1
    · simp only [sep, List.length_replicate, hnum]
    · exact hlast.1
    · simp only [sep, List.length_replicate, hnum]
  · rw [List.map_map]
    apply List.map_congr_left
    intro r h
    exact (hrow r h).2

/-- A table of two tests, one of them skipped. -/
example : ∃ w vis rows last, Screen (summary false [⟨lit "m.a", .pass, ⟨lit "10.00", lit "0.01", lit "1000.00"⟩⟩, ⟨lit "m.long name", .skip, ⟨lit "0.00", lit "0.00", lit "0.00"⟩⟩]
      (lit "TESTS=2 PASS=1 FAIL=0 SKIP=1") ⟨lit "10.00", lit "0.02", lit "500.00"⟩) vis ∧ Table w vis rows last ∧
      rows.map (columns w) = [["m.a", "PASS", "10.00", "0.01", "1000.00"].map lit, ["m.long name", "SKIP", "0.00", "0.00", "-.--"].map lit] ∧
      columns w last = ["TESTS=2 PASS=1 FAIL=0 SKIP=1", "", "10.00", "0.02", "500.00"].map lit :=
  C145_table _ _ _ _ (by simp) (by simp only [List.mem_cons, List.not_mem_nil, or_false, forall_eq_or_imp, forall_eq, Plain, Fit]; decide) (by unfold Plain; decide) (by unfold Fit Plain; decide)

/-- **C145** The summary of a regression, at its end: one row for each test that was to run, in the order of the plan; the numbers in the last
line are those of the rows and of the rows that show each status; every row shows one of these statuses, so the numbers add up. -/
theorem C145_totals (W : Reg.World) (shuffle : List Reg.Test → List Reg.Test) (filters : List (PyStr → Bool)) (tests : List Reg.Test) (r x : W.Rng)
    (evs : List (Reg.Ev W)) (strip : Bool) (times : Nat → Times) (totals : Times) (hp : Reg.plan shuffle filters tests ≠ [])
    (hn : ∀ t ∈ Reg.plan shuffle filters tests, Plain (t.fullname.map Char.toNat)) (ht : ∀ i, Fit (times i)) (hf : Fit totals)
    (hend : (Reg.regression W shuffle filters tests r x evs).tearing = true) :
    ∃ w vis rows last, Screen (ofRegression strip times totals (Reg.regression W shuffle filters tests r x evs)) vis ∧ Table w vis rows last ∧
      rows.map (column 3 w) = (Reg.plan shuffle filters tests).map (fun t => t.fullname.map Char.toNat) ∧
      column 3 w last = lit "TESTS=" ++ decText rows.length ++ lit " PASS=" ++ decText (showing w "PASS" rows) ++ lit " FAIL=" ++
        decText (showing w "FAIL" rows) ++ lit " SKIP=" ++ decText (showing w "SKIP" rows) ++
        (if W.xfailInResults then lit " XFAIL=" ++ decText (showing w "XFAIL" rows) else []) ∧
      rows.length = showing w "PASS" rows + showing w "FAIL" rows + showing w "SKIP" rows + (if W.xfailInResults then showing w "XFAIL" rows else 0) := by
  obtain ⟨c1, c2, c3, c4, c5, -, c7, c8, -⟩ := C51_counters W shuffle filters tests r x evs
  have hres := ((C50_recorded_once W shuffle filters tests r x evs).2.2.2.1).mp hend
  have hnx : W.xfailInResults = false → ∀ p ∈ (Reg.regression W shuffle filters tests r x evs).results, p.2 ≠ Reg.Outcome.xfail :=
    fun h => regression_noXfail h shuffle filters tests r x evs
  replace c8 := c8 hend
  clear hend
  revert c1 c2 c3 c4 c5 c7 c8 hres hnx
  unfold ofRegression
  generalize Reg.regression W shuffle filters tests r x evs = s
  intro c1 c2 c3 c4 c5 c7 hres hnx c8
  let f : (Reg.Test × Reg.Outcome) × Nat → Result := fun (r, i) => ⟨r.1.fullname.map Char.toNat, r.2, times i⟩
  have hname : (s.results.zipIdx.map f).map (·.name) = (Reg.plan shuffle filters tests).map (fun t => t.fullname.map Char.toNat) := by
    rw [← hres, List.map_map, List.map_map]
    have := congrArg (List.map fun p : Reg.Test × Reg.Outcome => p.1.fullname.map Char.toNat) (List.zipIdx_map_fst 0 s.results)
    rw [List.map_map] at this
    exact this
  have hout : (s.results.zipIdx.map f).map (·.outcome) = s.results.map (·.2) := by
    rw [List.map_map]
    have := congrArg (List.map fun p : Reg.Test × Reg.Outcome => p.2) (List.zipIdx_map_fst 0 s.results)
    rw [List.map_map] at this
    exact this
  have hne : s.results.zipIdx.map f ≠ [] := by
    intro e
    rw [e] at hname
    exact hp (by simpa using hname.symm)
  have hr : ∀ q ∈ s.results.zipIdx.map f, Plain q.name ∧ Fit q.times := by
    intro q hq
    refine ⟨?_, ?_⟩
    · have : q.name ∈ (s.results.zipIdx.map f).map (·.name) := List.mem_map_of_mem hq
      rw [hname, List.mem_map] at this
      obtain ⟨t, h1, h2⟩ := this
      exact h2 ▸ hn t h1
    · obtain ⟨y, -, rfl⟩ := List.mem_map.mp hq
      exact ht y.2
  obtain ⟨w, vis, rows, last, h1, h2, h3, h4⟩ := C145_table strip (s.results.zipIdx.map f)
    (totalName W.xfailInResults s.total s.passed s.failures s.skipped s.xfailed) totals hne hr (totalName_plain ..) hf
  have hsh : ∀ o, showing w (word o) rows = RegSpec.howMany o s.results := fun o => by
    rw [showing_count w o rows _ h3, hout]; rfl
  have e1 : showing w "PASS" rows = s.passed := (hsh .pass).trans c1.symm
  have e2 : showing w "FAIL" rows = s.failures := (hsh .fail).trans c2.symm
  have e3 : showing w "SKIP" rows = s.skipped := (hsh .skip).trans c3.symm
  have e4 : showing w "XFAIL" rows = s.xfailed := (hsh .xfail).trans c4.symm
  have hlen : rows.length = s.results.length := by
    have := congrArg List.length h3
    simpa using this
  have htot : rows.length = s.total := by omega
  refine ⟨w, vis, rows, last, h1, h2, (names_of w rows _ h3).trans hname, ?_, ?_⟩
  · simp only [columns, List.cons.injEq] at h4
    rw [h4.1, htot, e1, e2, e3, e4]
    rfl
  · rw [e1, e2, e3, e4, hlen, ← c5]
    cases hx : W.xfailInResults
    · have : s.xfailed = 0 := by
        rw [c4, RegSpec.howMany, List.count_eq_zero]
        intro hm
        obtain ⟨q, hq, e⟩ := List.mem_map.mp hm
        exact hnx hx q hq e
      simp [this]
    · simp

/-- The summary of a regression of four tests. -/
example : let s := Reg.regression (RegEx.W 0 0) id [] [RegEx.a, RegEx.b, RegEx.c, RegEx.d] 5 6 [.complete (some 1), .timer, .complete none, .timer, .complete (some 7)]
    ∃ w vis rows last, Screen (ofRegression false (fun _ => ⟨lit "1.00", lit "2.00", lit "0.50"⟩) ⟨lit "4.00", lit "8.00", lit "0.50"⟩ s) vis ∧
      Table w vis rows last ∧ rows.map (column 3 w) = ["m.bb", "m.ccc", "m.a", "m.dddd"].map lit := by
  intro s
  have hpl : Reg.plan id [] [RegEx.a, RegEx.b, RegEx.c, RegEx.d] = [RegEx.b, RegEx.c, RegEx.a, RegEx.d] := by decide
  obtain ⟨w, vis, rows, last, h1, h2, h3, -⟩ := C145_totals (RegEx.W 0 0) id [] [RegEx.a, RegEx.b, RegEx.c, RegEx.d] 5 6
    [.complete (some 1), .timer, .complete none, .timer, .complete (some 7)] false (fun _ => ⟨lit "1.00", lit "2.00", lit "0.50"⟩)
    ⟨lit "4.00", lit "8.00", lit "0.50"⟩ (by decide) (by rw [hpl]; unfold Plain; decide) (by intro _; unfold Fit Plain; decide) (by unfold Fit Plain; decide) (by decide)
  exact ⟨w, vis, rows, last, h1, h2, h3.trans (by rw [hpl]; decide)⟩

/-! ## C146 -/

/-- The full claim: each test is listed once, as failed if and only if one of its phases failed. -/
def C146_listed_full : Prop :=
  ∀ tests rs, Session tests rs → ∀ t ∈ tests, ∃ st, statuses t.nodeid (rows rs) = [st] ∧ (st = .fail ↔ t.failed)

/-- **C146** It does not hold: a test whose setup failed is not listed (its report is in the category "error"). -/
theorem C146_listed_counterexample : ¬ C146_listed_full := by
  intro h
  obtain ⟨st, h1, -⟩ := h [⟨lit "t", .failed, .passed, .passed, false⟩] (Phases.reports ⟨lit "t", .failed, .passed, .passed, false⟩)
    ⟨by simp, by intro t ht; simp only [List.mem_singleton] at ht; subst ht; decide, by decide⟩ _ (List.mem_singleton_self _)
  have : statuses (lit "t") (rows (Phases.reports ⟨lit "t", .failed, .passed, .passed, false⟩)) = [] := by decide
  rw [this] at h1
  cases h1

/-- **C146** A test whose teardown failed is listed as passed. -/
theorem C146_teardown_counterexample : ∃ t : Phases, Session [t] t.reports ∧ t.failed ∧ statuses t.nodeid (rows t.reports) = [.pass] :=
  ⟨⟨lit "t", .passed, .passed, .failed, false⟩, ⟨by simp, by intro t ht; simp only [List.mem_singleton] at ht; subst ht; decide, by decide⟩,
    by simp [Phases.failed], by decide⟩

/-- **C146** A test skipped in its call and in its teardown is listed, and counted, twice. -/
theorem C146_twice_counterexample : ∃ t : Phases, Session [t] t.reports ∧ statuses t.nodeid (rows t.reports) = [.skip, .skip] ∧
    (counts t.reports).tests = 2 :=
  ⟨⟨lit "t", .passed, .skipped, .skipped, false⟩, ⟨by simp, by intro t ht; simp only [List.mem_singleton] at ht; subst ht; decide, by decide⟩,
    by decide, by decide⟩

/-- **C146** A test that is expected to fail and passes (not strictly) is listed as failed, although none of its reports says so. -/
theorem C146_xpass_counterexample : ∃ t : Phases, Session [t] t.reports ∧ ¬ t.failed ∧ statuses t.nodeid (rows t.reports) = [.fail] :=
  ⟨⟨lit "t", .passed, .passed, .passed, true⟩, ⟨by simp, by intro t ht; simp only [List.mem_singleton] at ht; subst ht; decide, by decide⟩,
    by simp [Phases.failed], by decide⟩

/-- **C146, in part** A test whose setup did not fail and whose teardown passed is listed once, in whatever order the reports came, and with its
verdict; and no row is there for anything else. -/
theorem C146_listed_partial (tests : List Phases) (rs : List Report) (h : Session tests rs) :
    (∀ t ∈ tests, t.setup ≠ .failed → t.teardown = .passed → statuses t.nodeid (rows rs) = [t.verdict]) ∧
    (∀ row ∈ rows rs, ∃ t ∈ tests, row.1 = t.nodeid) := by
  refine ⟨?_, ?_⟩
  · intro t ht h1 h2
    have hrep := h.2.1 t ht
    rw [statuses_rows, hrep]
    have hmem : ∀ r ∈ t.reports, r ∈ rs := by
      intro r hr
      rw [← hrep] at hr
      exact (List.mem_filter.mp hr).1
    have key : ∀ c, (∃ r ∈ t.reports, category r = c) → (∀ k, mapStatus k ≠ none → k ≠ c → t.reports.filter (fun r => category r = k ∧ r.cocotb) = []) →
        (mapStatus c = some t.verdict ∧ (t.reports.filter fun r => category r = c ∧ r.cocotb).length = 1) →
        ((keys rs).flatMap fun k =>
          match mapStatus k with
          | some st => ((t.reports.filter fun r => category r = k ∧ r.cocotb).map fun _ => st)
          | none => []) = [t.verdict] := by
      intro c hc hk hv
      rw [flatMap_one (keys rs) _ c (keys_nodup rs) ((mem_keys rs c).mpr (by obtain ⟨r, h1, h2⟩ := hc; exact ⟨r, hmem r h1, h2⟩)) ?_]
      · rw [hv.1]
        obtain ⟨a, ha⟩ := List.length_eq_one_iff.mp hv.2
        simp only [ha, List.map_cons, List.map_nil]
      · intro k _ hkc
        cases hm : mapStatus k with
        | none => rfl
        | some st => simp only [hk k (by rw [hm]; simp) hkc, List.map_nil]
    obtain ⟨id, su, ca, td, xf⟩ := t
    simp only at h1 h2
    subst h2
    cases su with
    | failed => exact absurd rfl h1
    | skipped =>
      cases xf
      · refine key .skipped ?_ ?_ ?_ <;> simp [Phases.reports, category, mapStatus, Phases.verdict]
        intro k; cases k <;> simp
      · refine key .xfailed ?_ ?_ ?_ <;> simp [Phases.reports, category, mapStatus, Phases.verdict]
        intro k; cases k <;> simp
    | passed =>
      cases xf <;> cases ca
      · refine key .passed ?_ ?_ ?_ <;> simp [Phases.reports, category, mapStatus, Phases.verdict]
        intro k; cases k <;> simp
      · refine key .failed ?_ ?_ ?_ <;> simp [Phases.reports, category, mapStatus, Phases.verdict]
        intro k; cases k <;> simp
      · refine key .skipped ?_ ?_ ?_ <;> simp [Phases.reports, category, mapStatus, Phases.verdict]
        intro k; cases k <;> simp
      · refine key .xpassed ?_ ?_ ?_ <;> simp [Phases.reports, category, mapStatus, Phases.verdict]
        intro k; cases k <;> simp
      · refine key .failed ?_ ?_ ?_ <;> simp [Phases.reports, category, mapStatus, Phases.verdict]
        intro k; cases k <;> simp
      · refine key .xfailed ?_ ?_ ?_ <;> simp [Phases.reports, category, mapStatus, Phases.verdict]
        intro k; cases k <;> simp
  · intro row hrow
    unfold rows at hrow
    obtain ⟨k, -, hk⟩ := List.mem_flatMap.mp hrow
    split at hk
    · obtain ⟨r, hr, rfl⟩ := List.mem_map.mp hk
      rw [List.mem_filter] at hr
      exact h.2.2 r hr.1 (by simpa using (of_decide_eq_true hr.2).2)
    · simp at hk

/-- A session of two tests whose reports are interleaved, one of them an expected failure. -/
example : Session [⟨lit "a", .passed, .failed, .passed, false⟩, ⟨lit "b", .passed, .skipped, .passed, true⟩]
      [⟨lit "a", .setup, .passed, false, true⟩, ⟨lit "b", .setup, .passed, false, true⟩, ⟨lit "x", .call, .passed, false, false⟩,
       ⟨lit "b", .call, .skipped, true, true⟩, ⟨lit "a", .call, .failed, false, true⟩, ⟨lit "a", .teardown, .passed, false, true⟩,
       ⟨lit "b", .teardown, .passed, false, true⟩] := by
  refine ⟨by decide, ?_, by decide⟩
  simp only [List.mem_cons, List.not_mem_nil, or_false, forall_eq_or_imp, forall_eq]
  decide

/-- **C146** The numbers in the last line are the numbers of rows, in all and with each status, and add up, whatever was reported. -/
theorem C146_counts (rs : List Report) :
    (counts rs).tests = (rows rs).length ∧ (counts rs).pass = ((rows rs).map (·.2)).count .pass ∧
    (counts rs).fail = ((rows rs).map (·.2)).count .fail ∧ (counts rs).skip = ((rows rs).map (·.2)).count .skip ∧
    (counts rs).tests = (counts rs).pass + (counts rs).fail + (counts rs).skip := by
  have hadd : ∀ (l : List Report) (p : Report → Bool) (st : Status) (c : Counts),
      l.foldl (fun c r => if p r then c.add st else c) c = ((l.filter p).map fun _ => st).foldl Counts.add c := by
    intro l p st
    induction l with
    | nil => intro c; rfl
    | cons r l ih =>
      intro c
      cases hp : p r <;> simp [hp, ih]
  have hall : ∀ (ks : List Category) (c : Counts), ks.foldl (fun c k =>
      match mapStatus k with
      | some st => rs.foldl (fun c r => if category r = k ∧ r.cocotb then c.add st else c) c
      | none => c) c = ((ks.flatMap fun k =>
        match mapStatus k with
        | some st => (rs.filter fun r => category r = k ∧ r.cocotb).map fun r => (r.nodeid, st)
        | none => []).map (·.2)).foldl Counts.add c := by
    intro ks
    induction ks with
    | nil => intro c; rfl
    | cons k ks ih =>
      intro c
      simp only [List.foldl_cons, List.flatMap_cons, List.map_append, List.foldl_append]
      rw [ih]
      congr 1
      cases mapStatus k with
      | none => rfl
      | some st =>
        have := hadd rs (fun r => decide (category r = k ∧ r.cocotb)) st c
        simp only [decide_eq_true_eq] at this
        simp only [List.map_map]
        exact this
  have hc : counts rs = ((rows rs).map (·.2)).foldl Counts.add {} := hall (keys rs) {}
  have hfold : ∀ (l : List Status) (c : Counts), (l.foldl Counts.add c).tests = c.tests + l.length ∧ (l.foldl Counts.add c).pass = c.pass + l.count .pass ∧
      (l.foldl Counts.add c).fail = c.fail + l.count .fail ∧ (l.foldl Counts.add c).skip = c.skip + l.count .skip ∧
      l.length = l.count .pass + l.count .fail + l.count .skip := by
    intro l
    induction l with
    | nil => intro c; simp
    | cons st l ih =>
      intro c
      obtain ⟨i1, i2, i3, i4, i5⟩ := ih (c.add st)
      simp only [List.foldl_cons, i1, i2, i3, i4, List.length_cons, List.count_cons]
      cases st <;> simp [Counts.add] <;> omega
  obtain ⟨f1, f2, f3, f4, f5⟩ := hfold ((rows rs).map (·.2)) {}
  rw [hc, f1, f2, f3, f4]
  simp only [List.length_map] at f5 ⊢
  omega

end Verif
