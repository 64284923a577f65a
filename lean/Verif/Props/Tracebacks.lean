import Verif.Spec.Tracebacks
/-!
# C171: tracebacks of exceptions that end tasks
-/
namespace Verif

open Tracebacks Spec.Tracebacks

namespace TracebacksL

theorem remove_unwind (line : Nat) (fs : List Frame) (e : Exc) (h : Heap) :
    remove [resumeName] e (unwind (⟨resumeName, line⟩ :: fs) e h) = some (unwind fs e h) := by
  unfold remove unwind
  simp only [if_true, List.cons_append, removeTb, Option.map_some, Option.some.injEq]
  funext x
  split <;> simp_all

theorem step_leave {s : St} {t : Task} {k : Kind} {src : Src} {fs : List Frame} {e : Exc}
    (h : src.exc s = some e) :
    step s (.leave t k src fs) = { out := fun y => if y = t then some e else s.out y, tb := unwind fs e s.tb } := by
  unfold step
  simp only
  rw [h]
  cases k <;> simp [resume, remove_unwind]

theorem run_snoc (pre : List Op) (op : Op) : run (pre ++ [op]) = step (run pre) op := by
  unfold run; rw [List.foldl_append]; rfl

theorem snoc_inj {α : Type} {a b : List α} {x y : α} (h : a ++ [x] = b ++ [y]) : a = b ∧ x = y := by
  have := List.append_inj' h rfl
  exact ⟨this.1, by simpa using this.2⟩

theorem way_snoc {pre : List Op} {op : Op} {t : Task} {ws : List Frame} (h : Way (pre ++ [op]) t ws) :
    Way pre t ws ∨ (∃ k e, op = .leave t k (.new e) ws) ∨
      ∃ k u fs us, op = .leave t k (.of u) fs ∧ Way pre u us ∧ ws = fs ++ us := by
  generalize hx : pre ++ [op] = x at h
  cases h with
  | here => obtain ⟨rfl, rfl⟩ := snoc_inj hx; exact Or.inr (Or.inl ⟨_, _, rfl⟩)
  | «from» hw => obtain ⟨rfl, rfl⟩ := snoc_inj hx; exact Or.inr (Or.inr ⟨_, _, _, _, rfl, hw, rfl⟩)
  | later hw => obtain ⟨rfl, rfl⟩ := snoc_inj hx; exact Or.inl hw

theorem way_nil {t : Task} {ws : List Frame} (h : Way [] t ws) : False := by
  generalize hx : ([] : List Op) = x at h
  cases h <;> simp at hx

/-- What holds of every possible history. -/
structure Inv (ops : List Op) : Prop where
  way_out : ∀ t ws, Way ops t ws → ∃ e, (run ops).out t = some e
  out_way : ∀ t e, (run ops).out t = some e → ∃ ws, Way ops t ws
  born : ∀ t e, (run ops).out t = some e → ∃ t' k' fs', Op.leave t' k' (.new e) fs' ∈ ops
  unborn : ∀ e, (∀ t' k' fs', Op.leave t' k' (.new e) fs' ∉ ops) → (run ops).tb e = []

theorem inv {ops : List Op} (h : Possible ops) : Inv ops := by
  induction h with
  | nil => exact ⟨fun t ws h => (way_nil h).elim, fun t e h => (by cases h), fun t e h => (by cases h), fun _ _ => rfl⟩
  | @new pre t k e fs hp hn hf ih =>
    have hs : run (pre ++ [.leave t k (.new e) fs]) = _ := (run_snoc ..).trans (step_leave rfl)
    constructor
    · intro t' ws hw
      rw [hs]
      by_cases ht : t' = t
      · exact ⟨e, by simp [ht]⟩
      · rcases way_snoc hw with h | ⟨k', e', h⟩ | ⟨k', u, fs', us, h, _⟩
        · simpa [ht] using ih.way_out t' ws h
        · cases h; exact absurd rfl ht
        · cases h
    · intro t' e' h
      rw [hs] at h
      by_cases ht : t' = t
      · subst ht; exact ⟨_, .here⟩
      · obtain ⟨ws, hw⟩ := ih.out_way t' e' (by simpa [ht] using h)
        exact ⟨ws, .later hw⟩
    · intro t' e' h
      rw [hs] at h
      by_cases ht : t' = t
      · simp only [ht, if_true, Option.some.injEq] at h
        subst h
        exact ⟨t, k, fs, by simp⟩
      · obtain ⟨a, b, c, d⟩ := ih.born t' e' (by simpa [ht] using h)
        exact ⟨a, b, c, by simp [d]⟩
    · intro e' h
      rw [hs]
      have : e' ≠ e := by rintro rfl; exact h t k fs (by simp)
      simp only [unwind, this, if_false]
      exact ih.unborn e' fun a b c d => h a b c (by simp [d])
  | @of pre t k u fs ws hp hn hw ih =>
    obtain ⟨e, he⟩ := ih.way_out u ws hw
    have hs : run (pre ++ [.leave t k (.of u) fs]) = _ := (run_snoc ..).trans (step_leave he)
    constructor
    · intro t' ws' hw'
      rw [hs]
      by_cases ht : t' = t
      · exact ⟨e, by simp [ht]⟩
      · rcases way_snoc hw' with h | ⟨k', e', h⟩ | ⟨k', u, fs', us, h, _⟩
        · simpa [ht] using ih.way_out t' ws' h
        · cases h
        · cases h; exact absurd rfl ht
    · intro t' e' h
      rw [hs] at h
      by_cases ht : t' = t
      · subst ht; exact ⟨_, .from hw⟩
      · obtain ⟨ws, hw⟩ := ih.out_way t' e' (by simpa [ht] using h)
        exact ⟨ws, .later hw⟩
    · intro t' e' h
      rw [hs] at h
      have : ∃ t'', (run pre).out t'' = some e' := by
        by_cases ht : t' = t
        · simp only [ht, if_true] at h; exact ⟨u, he.trans h⟩
        · exact ⟨t', by simpa [ht] using h⟩
      obtain ⟨t'', h''⟩ := this
      obtain ⟨a, b, c, d⟩ := ih.born t'' e' h''
      exact ⟨a, b, c, by simp [d]⟩
    · intro e' h
      rw [hs]
      have h' : ∀ t' k' fs', Op.leave t' k' (.new e') fs' ∉ pre := fun a b c d => h a b c (by simp [d])
      have : e' ≠ e := by
        rintro rfl
        obtain ⟨a, b, c, d⟩ := ih.born u e' he
        exact h' a b c d
      simp only [unwind, this, if_false]
      exact ih.unborn e' h'
  | @look pre u fs ws hp hw ih =>
    obtain ⟨e, he⟩ := ih.way_out u ws hw
    have hs : run (pre ++ [.look u fs]) = { run pre with tb := unwind fs e (run pre).tb } := by
      rw [run_snoc]; unfold step; simp only [he]
    constructor
    · intro t' ws' hw'
      rw [hs]
      rcases way_snoc hw' with h | ⟨k', e', h⟩ | ⟨k', u, fs', us, h, _⟩
      · exact ih.way_out t' ws' h
      · cases h
      · cases h
    · intro t' e' h
      rw [hs] at h
      obtain ⟨ws, hw⟩ := ih.out_way t' e' h
      exact ⟨ws, .later hw⟩
    · intro t' e' h
      rw [hs] at h
      obtain ⟨a, b, c, d⟩ := ih.born t' e' h
      exact ⟨a, b, c, by simp [d]⟩
    · intro e' h
      rw [hs]
      have h' : ∀ t' k' fs', Op.leave t' k' (.new e') fs' ∉ pre := fun a b c d => h a b c (by simp [d])
      have : e' ≠ e := by
        rintro rfl
        obtain ⟨a, b, c, d⟩ := ih.born u e' he
        exact h' a b c d
      simp only [unwind, this, if_false]
      exact ih.unborn e' h'

theorem one_pre {pre : List Op} {op : Op} (h : OneTaker (pre ++ [op])) : OneTaker pre := by
  intro u
  have := h u
  rw [List.countP_append] at this
  omega

/-- What holds of every possible history in which no result is taken twice. -/
theorem single {ops : List Op} (h : Possible ops) (ho : OneTaker ops) :
    (∀ t ws e, Way ops t ws → ops.countP (takes t) = 0 → (run ops).out t = some e → (run ops).tb e = ws) ∧
    (∀ t t' e, ops.countP (takes t) = 0 → ops.countP (takes t') = 0 → (run ops).out t = some e → (run ops).out t' = some e → t = t') := by
  induction h with
  | nil => exact ⟨fun t ws e h => (way_nil h).elim, fun t t' e _ _ h => (by cases h)⟩
  | @new pre t k e fs hp hn hf ih =>
    obtain ⟨i1, i2⟩ := ih (one_pre ho)
    have I := inv hp
    have hs : run (pre ++ [.leave t k (.new e) fs]) = _ := (run_snoc ..).trans (step_leave rfl)
    have hc : ∀ u, (pre ++ [Op.leave t k (.new e) fs]).countP (takes u) = pre.countP (takes u) := by
      intro u; simp [List.countP_append, takes]
    have hne : ∀ t', (run pre).out t' ≠ some e := by
      intro t' h'
      obtain ⟨a, b, c, d⟩ := I.born t' e h'
      exact hf a b c d
    have htb : (run pre).tb e = [] := I.unborn e hf
    constructor
    · intro t' ws e' hw h0 ho'
      rw [hc] at h0
      rw [hs] at ho' ⊢
      by_cases ht : t' = t
      · simp only [ht, if_true, Option.some.injEq] at ho'
        subst ho'
        simp only [unwind, if_true, htb, List.append_nil]
        subst ht
        rcases way_snoc hw with h | ⟨k', e', h⟩ | ⟨k', u, fs', us, h, _⟩
        · exact absurd h (hn ws)
        · cases h; rfl
        · cases h
      · simp only [ht, if_false] at ho'
        have : e' ≠ e := by rintro rfl; exact hne t' ho'
        simp only [unwind, this, if_false]
        rcases way_snoc hw with h | ⟨k', e', h⟩ | ⟨k', u, fs', us, h, _⟩
        · exact i1 t' ws e' h h0 ho'
        · cases h; exact absurd rfl ht
        · cases h
    · intro t1 t2 e' h1 h2 o1 o2
      rw [hc] at h1 h2
      rw [hs] at o1 o2
      by_cases ht1 : t1 = t <;> by_cases ht2 : t2 = t <;> simp only [ht1, ht2, if_true, if_false, Option.some.injEq] at o1 o2
      · rw [ht1, ht2]
      · subst o1; exact absurd o2 (hne t2)
      · subst o2; exact absurd o1 (hne t1)
      · exact i2 t1 t2 e' h1 h2 o1 o2
  | @of pre t k u fs ws hp hn hw ih =>
    obtain ⟨i1, i2⟩ := ih (one_pre ho)
    have I := inv hp
    obtain ⟨e, he⟩ := I.way_out u ws hw
    have hs : run (pre ++ [.leave t k (.of u) fs]) = _ := (run_snoc ..).trans (step_leave he)
    have hc : ∀ v, (pre ++ [Op.leave t k (.of u) fs]).countP (takes v) = pre.countP (takes v) + if u = v then 1 else 0 := by
      intro v; by_cases hv : u = v <;> simp [List.countP_append, takes, hv]
    have hu0 : pre.countP (takes u) = 0 := by
      have := ho u; rw [hc, if_pos rfl] at this; omega
    constructor
    · intro t' ws' e' hw' h0 ho'
      rw [hc] at h0
      have hut : u ≠ t' := by rintro rfl; simp at h0
      rw [hs] at ho' ⊢
      by_cases ht : t' = t
      · simp only [ht, if_true, Option.some.injEq] at ho'
        subst ho'
        subst ht
        simp only [unwind, if_true]
        rcases way_snoc hw' with h | ⟨k', e', h⟩ | ⟨k', u', fs', us, h, h2, h3⟩
        · exact absurd h (hn ws')
        · cases h
        · cases h
          rw [h3, i1 u us e h2 hu0 he]
      · simp only [ht, if_false] at ho'
        have h0' : pre.countP (takes t') = 0 := by omega
        have : e' ≠ e := by
          rintro rfl
          exact hut (i2 u t' e' hu0 h0' he ho')
        simp only [unwind, this, if_false]
        rcases way_snoc hw' with h | ⟨k', e', h⟩ | ⟨k', u, fs', us, h, _⟩
        · exact i1 t' ws' e' h h0' ho'
        · cases h
        · cases h; exact absurd rfl ht
    · intro t1 t2 e' h1 h2 o1 o2
      rw [hc] at h1 h2
      have hu1 : u ≠ t1 := by rintro rfl; simp at h1
      have hu2 : u ≠ t2 := by rintro rfl; simp at h2
      have h1' : pre.countP (takes t1) = 0 := by omega
      have h2' : pre.countP (takes t2) = 0 := by omega
      rw [hs] at o1 o2
      by_cases ht1 : t1 = t <;> by_cases ht2 : t2 = t <;> simp only [ht1, ht2, if_true, if_false, Option.some.injEq] at o1 o2
      · rw [ht1, ht2]
      · subst o1; exact absurd (i2 u t2 e hu0 h2' he o2) hu2
      · subst o2; exact absurd (i2 u t1 e hu0 h1' he o1) hu1
      · exact i2 t1 t2 e' h1' h2' o1 o2
  | @look pre u fs ws hp hw ih =>
    obtain ⟨i1, i2⟩ := ih (one_pre ho)
    have I := inv hp
    obtain ⟨e, he⟩ := I.way_out u ws hw
    have hs : run (pre ++ [.look u fs]) = { run pre with tb := unwind fs e (run pre).tb } := by
      rw [run_snoc]; unfold step; simp only [he]
    have hc : ∀ v, (pre ++ [Op.look u fs]).countP (takes v) = pre.countP (takes v) + if u = v then 1 else 0 := by
      intro v; by_cases hv : u = v <;> simp [List.countP_append, takes, hv]
    have hu0 : pre.countP (takes u) = 0 := by
      have := ho u; rw [hc, if_pos rfl] at this; omega
    constructor
    · intro t' ws' e' hw' h0 ho'
      rw [hc] at h0
      have hut : u ≠ t' := by rintro rfl; simp at h0
      have h0' : pre.countP (takes t') = 0 := by omega
      rw [hs] at ho' ⊢
      have : e' ≠ e := by
        rintro rfl
        exact hut (i2 u t' e' hu0 h0' he ho')
      simp only [unwind, this, if_false]
      rcases way_snoc hw' with h | ⟨k', e', h⟩ | ⟨k', u, fs', us, h, _⟩
      · exact i1 t' ws' e' h h0' ho'
      · cases h
      · cases h
    · intro t1 t2 e' h1 h2 o1 o2
      rw [hc] at h1 h2
      rw [hs] at o1 o2
      exact i2 t1 t2 e' (by omega) (by omega) o1 o2

theorem step_suffix (s : St) (op : Op) (e : Exc) : ∃ xs, (step s op).tb e = xs ++ s.tb e := by
  cases op with
  | leave t k src fs =>
    cases h : src.exc s with
    | none => exact ⟨[], by unfold step; simp only; rw [h]; rfl⟩
    | some x =>
      rw [step_leave h]
      by_cases hx : e = x
      · exact ⟨fs, by simp [unwind, hx]⟩
      · exact ⟨[], by simp [unwind, hx]⟩
  | look u fs =>
    unfold step
    cases h : s.out u with
    | none => exact ⟨[], by simp [h]⟩
    | some x =>
      by_cases hx : e = x
      · exact ⟨fs, by simp [h, unwind, hx]⟩
      · exact ⟨[], by simp [h, unwind, hx]⟩

theorem possible_pre {a b : List Op} (h : Possible (a ++ b)) : Possible a := by
  generalize hx : a ++ b = x at h
  induction h generalizing b with
  | nil => simp at hx; rw [hx.1]; exact .nil
  | new hp hn hf ih =>
    rcases List.eq_nil_or_concat b with rfl | ⟨b', y, rfl⟩
    · rw [List.append_nil] at hx; rw [hx]; exact .new hp hn hf
    · rw [List.concat_eq_append, ← List.append_assoc] at hx; exact ih (snoc_inj hx).1
  | of hp hn hw ih =>
    rcases List.eq_nil_or_concat b with rfl | ⟨b', y, rfl⟩
    · rw [List.append_nil] at hx; rw [hx]; exact .of hp hn hw
    · rw [List.concat_eq_append, ← List.append_assoc] at hx; exact ih (snoc_inj hx).1
  | look hp hw ih =>
    rcases List.eq_nil_or_concat b with rfl | ⟨b', y, rfl⟩
    · rw [List.append_nil] at hx; rw [hx]; exact .look hp hw
    · rw [List.concat_eq_append, ← List.append_assoc] at hx; exact ih (snoc_inj hx).1

theorem step_same {ops : List Op} {op : Op} {t : Task} {e : Exc} (h : Possible (ops ++ [op])) (ht : (run ops).out t = some e)
    (hn : ∀ u, (run ops).out u = some e → takes u op = false) :
    (run (ops ++ [op])).tb e = (run ops).tb e ∧ (run (ops ++ [op])).out t = some e := by
  have I := inv (possible_pre h)
  generalize hx : ops ++ [op] = x at h
  cases h with
  | nil => simp at hx
  | @new pre t' k e' fs hp hn' hf =>
    obtain ⟨rfl, rfl⟩ := snoc_inj hx
    rw [run_snoc, step_leave (e := e') rfl]
    have hne : e ≠ e' := by
      rintro rfl
      obtain ⟨a, b, c, d⟩ := I.born t e ht
      exact hf a b c d
    have htt : t ≠ t' := by
      rintro rfl
      obtain ⟨ws, hw⟩ := I.out_way t e ht
      exact hn' ws hw
    simp [unwind, hne, htt, ht]
  | @of pre t' k u fs ws hp hn' hw =>
    obtain ⟨rfl, rfl⟩ := snoc_inj hx
    obtain ⟨e', he⟩ := I.way_out u ws hw
    rw [run_snoc, step_leave (s := run ops) (src := .of u) (e := e') he]
    have hne : e ≠ e' := by
      rintro rfl
      have := hn u he
      simp [takes] at this
    have htt : t ≠ t' := by
      rintro rfl
      obtain ⟨ws, hw⟩ := I.out_way t e ht
      exact hn' ws hw
    simp [unwind, hne, htt, ht]
  | @look pre u fs ws hp hw =>
    obtain ⟨rfl, rfl⟩ := snoc_inj hx
    obtain ⟨e', he⟩ := I.way_out u ws hw
    have hne : e ≠ e' := by
      rintro rfl
      have := hn u he
      simp [takes] at this
    rw [run_snoc]
    unfold step
    simp [he, unwind, hne, ht]

end TracebacksL

open TracebacksL

/-- C171: frames are taken off a traceback exactly if they are the first ones and have the names that were asked for; else
the call fails. -/
theorem C171_remove (ns : List PyStr) (tb r : List Frame) :
    removeTb ns tb = some r ↔ ∃ fs : List Frame, fs.map (·.name) = ns ∧ tb = fs ++ r := by
  induction ns generalizing tb with
  | nil =>
    unfold removeTb
    constructor
    · intro h
      cases h
      exact ⟨[], rfl, rfl⟩
    · rintro ⟨fs, h1, h2⟩
      rw [List.map_eq_nil_iff.1 h1] at h2
      rw [h2]
      rfl
  | cons n ns ih =>
    cases tb with
    | nil =>
      simp only [removeTb, reduceCtorEq, false_iff]
      rintro ⟨fs, h1, h2⟩
      cases fs with
      | nil => cases h1
      | cons g fs => cases h2
    | cons f tb =>
      unfold removeTb
      constructor
      · intro h
        split at h
        · rename_i hf
          obtain ⟨fs, h1, h2⟩ := (ih tb).1 h
          exact ⟨f :: fs, by simp [hf, h1], by simp [h2]⟩
        · cases h
      · rintro ⟨fs, h1, h2⟩
        cases fs with
        | nil => simp at h1
        | cons g fs =>
          simp only [List.map_cons, List.cons.injEq] at h1
          simp only [List.cons_append, List.cons.injEq] at h2
          rw [if_pos (by rw [h2.1]; exact h1.1)]
          exact (ih tb).2 ⟨fs, h1.2, h2.2⟩

example : removeTb ["a".toList, "b".toList] [⟨"a".toList, 1⟩, ⟨"b".toList, 2⟩, ⟨"c".toList, 3⟩] = some [⟨"c".toList, 3⟩] := by
  decide +kernel

/-- C171: when an exception leaves a task's coroutine or comes from a trigger, what is recorded or thrown into the task is
this object, with the frames it left outside of cocotb's `_resume` in front of what its traceback was. -/
theorem C171_own (mustCancel : Bool) (line : Nat) (new : Exc) (h : Heap) (e : Exc) (fs : List Frame) :
    (∀ x, (resume mustCancel line new x h).1 ≠ .assertion) ∧
    (∀ k x, (k = .other → mustCancel = false) →
      resume mustCancel line new (.left k e fs) h = x →
        (x.1 = .errored e (k == .fatal) ∧ k ≠ .cancelled ∨ x.1 = .cancelled e ∧ k = .cancelled) ∧
        ∀ y, x.2 y = if y = e then fs ++ h y else h y) ∧
    (∀ x, resume false line new (.refused e fs) h = x → x.1 = .resumed e ∧ ∀ y, x.2 y = if y = e then fs ++ h y else h y) := by
  refine ⟨?_, ?_, ?_⟩
  · intro x
    cases x with
    | left k e fs => cases k <;> cases mustCancel <;> simp [resume, remove_unwind]
    | _ => cases mustCancel <;> simp [resume, remove_unwind]
  · rintro k x hk rfl
    cases k with
    | other => rw [hk rfl]; simp [resume, remove_unwind, unwind]
    | _ => simp [resume, remove_unwind, unwind]
  · rintro x rfl
    simp [resume, remove_unwind, unwind]

example : (resume false 7 9 (.left .other 1 [⟨"test".toList, 3⟩, ⟨"f".toList, 5⟩]) fun _ => []).1 = .errored 1 false := by
  decide +kernel

/-- C171: while it is being cancelled a task can end as cancelled only by letting a CancelledError out, and only
KeyboardInterrupt and its like are kept besides; with everything else, also another exception, it ends with a new error. -/
theorem C171_cancelling (line : Nat) (new : Exc) (x : Exit) (h : Heap) :
    (∀ e, (resume true line new x h).1 = .cancelled e ↔ ∃ fs, x = .left .cancelled e fs) ∧
    ((∀ k e fs, x = .left k e fs → k = .other ∧ e ≠ new) →
      (resume true line new x h).1 = .errored new false ∧ (resume true line new x h).2 new = h new) := by
  constructor
  · intro e
    cases x with
    | left k e' fs =>
      cases k <;> simp [resume, remove, removeTb, unwind]
    | _ => simp [resume]
  · intro hx
    cases x with
    | left k e fs =>
      obtain ⟨rfl, hne⟩ := hx k e fs rfl
      simp [resume, unwind, Ne.symm hne]
    | _ => simp [resume]

example : (resume true 7 9 (.left .other 5 [⟨[], 1⟩]) fun _ => []).1 = .errored 9 false := by decide +kernel

/-- C171, full statement: until somebody takes it, the exception a task ended with shows the way it came: the frames of
the task and of the tasks it passed through before. -/
def C171_way_full : Prop := ∀ (ops : List Op) (t : Task) (ws : List Frame), Possible ops → Way ops t ws →
  ops.countP (takes t) = 0 → ∃ e, (run ops).out t = some e ∧ (run ops).tb e = ws

/-- Two tasks await a task that fails, and both fail: the traceback of the second shows the frames of the first. -/
theorem C171_way_counterexample : ¬ C171_way_full := by
  intro H
  have w0 : Way [.leave 0 .other (.new 5) [⟨[], 1⟩]] 0 [⟨[], 1⟩] := .here (pre := [])
  have p0 : Possible [.leave 0 .other (.new 5) [⟨[], 1⟩]] :=
    .new (pre := []) .nil (fun ws h => way_nil h) (by simp)
  have n1 : ∀ t ws, t ≠ 0 → ¬ Way [.leave 0 .other (.new 5) [⟨[], 1⟩]] t ws := by
    intro t ws ht h
    rcases way_snoc (pre := []) h with h | ⟨k, e, h⟩ | ⟨k, u, fs, us, h, _⟩
    · exact way_nil h
    · cases h; exact ht rfl
    · cases h
  have p1 := Possible.of (t := 1) (k := .other) (fs := [⟨[], 2⟩]) p0 (n1 1 · (by decide)) w0
  have n2 : ∀ ws, ¬ Way ([.leave 0 .other (.new 5) [⟨[], 1⟩]] ++ [.leave 1 .other (.of 0) [⟨[], 2⟩]]) 2 ws := by
    intro ws h
    rcases way_snoc h with h | ⟨k, e, h⟩ | ⟨k, u, fs, us, h, _⟩
    · exact n1 2 ws (by decide) h
    · cases h
    · cases h
  have p2 := Possible.of (t := 2) (k := .other) (fs := [⟨[], 3⟩]) p1 n2 (.later w0)
  obtain ⟨e, h1, h2⟩ := H _ 2 _ p2 (.from (.later w0)) (by decide)
  have : (run [.leave 0 .other (.new 5) [⟨[], 1⟩], .leave 1 .other (.of 0) [⟨[], 2⟩], .leave 2 .other (.of 0) [⟨[], 3⟩]]).out 2 = some 5 := by
    decide +kernel
  have he : e = 5 := by
    have := this.symm.trans h1
    cases this; rfl
  subst he
  revert h2
  decide +kernel

/-- C171: if no task's result is taken twice. -/
theorem C171_way_partial {ops : List Op} {t : Task} {ws : List Frame} (h : Possible ops) (ho : OneTaker ops) (hw : Way ops t ws)
    (h0 : ops.countP (takes t) = 0) : ∃ e, (run ops).out t = some e ∧ (run ops).tb e = ws := by
  obtain ⟨e, he⟩ := (inv h).way_out t ws hw
  exact ⟨e, he, (single h ho).1 t ws e hw h0 he⟩

/-- A task is awaited by another one, which fails with its exception. -/
example : ∃ ops ws, Possible ops ∧ OneTaker ops ∧ Way ops 1 ws ∧ ops.countP (takes 1) = 0 ∧ ws.length = 3 := by
  have w0 : Way [.leave 0 .other (.new 5) [⟨[], 1⟩]] 0 [⟨[], 1⟩] := .here (pre := [])
  have p0 : Possible [.leave 0 .other (.new 5) [⟨[], 1⟩]] :=
    .new (pre := []) .nil (fun ws h => way_nil h) (by simp)
  refine ⟨_, _, Possible.of (t := 1) (k := .other) (fs := [⟨[], 2⟩, ⟨[], 3⟩]) p0 ?_ w0, ?_, .from w0, by decide, rfl⟩
  · intro ws h
    rcases way_snoc (pre := []) h with h | ⟨k, e, h⟩ | ⟨k, u, fs, us, h, _⟩
    · exact way_nil h
    · cases h
    · cases h
  · intro u
    by_cases hu : 0 = u <;> simp [takes, hu]

/-- C171: frames are only added in front: what the traceback of an object has shown it shows for ever. -/
theorem C171_kept (ops more : List Op) (e : Exc) : ∃ xs, (run (ops ++ more)).tb e = xs ++ (run ops).tb e := by
  unfold run
  rw [List.foldl_append]
  generalize List.foldl step {} ops = s
  induction more generalizing s with
  | nil => exact ⟨[], rfl⟩
  | cons op more ih =>
    obtain ⟨xs, hx⟩ := ih (step s op)
    obtain ⟨ys, hy⟩ := step_suffix s op e
    exact ⟨xs ++ ys, by rw [List.foldl_cons, hx, hy, List.append_assoc]⟩

/-- C171, full statement: the exception of a task that has ended does not change. -/
def C171_same_full : Prop := ∀ (ops more : List Op) (t : Task) (e : Exc), Possible ops → Possible (ops ++ more) →
  (run ops).out t = some e → (run (ops ++ more)).tb e = (run ops).tb e

/-- Every call of `result()` makes the traceback longer. -/
theorem C171_same_counterexample : ¬ C171_same_full := by
  intro H
  have w0 : Way [.leave 0 .other (.new 5) [⟨[], 1⟩]] 0 [⟨[], 1⟩] := .here (pre := [])
  have p0 : Possible [.leave 0 .other (.new 5) [⟨[], 1⟩]] :=
    .new (pre := []) .nil (fun ws h => way_nil h) (by simp)
  have := H _ [.look 0 [⟨[], 2⟩]] 0 5 p0 (.look p0 w0) (by decide +kernel)
  revert this
  decide +kernel

/-- C171: as long as nobody takes the result of a task that ended with this exception. -/
theorem C171_same_partial {ops more : List Op} {t : Task} {e : Exc} (h : Possible (ops ++ more))
    (ht : (run ops).out t = some e)
    (hn : ∀ pre op post, more = pre ++ op :: post → ∀ u, (run (ops ++ pre)).out u = some e → takes u op = false) :
    (run (ops ++ more)).tb e = (run ops).tb e ∧ (run (ops ++ more)).out t = some e := by
  induction more generalizing ops with
  | nil => simp [ht]
  | cons op more ih =>
    have e1 : ops ++ op :: more = ops ++ [op] ++ more := by simp
    rw [e1] at h ⊢
    obtain ⟨h1, h2⟩ := step_same (possible_pre h) ht (by simpa using hn [] op more rfl)
    obtain ⟨h3, h4⟩ := ih h h2 (by
      intro pre op' post hm u hu
      exact hn (op :: pre) op' post (by simp [hm]) u (by simpa using hu))
    exact ⟨h3.trans h1, h4⟩

example : ∃ ops more, Possible (ops ++ more) ∧ (run ops).out 0 = some 5 ∧ more ≠ [] ∧
    ∀ pre op post, more = pre ++ op :: post → ∀ u, (run (ops ++ pre)).out u = some 5 → takes u op = false := by
  have p0 : Possible [.leave 0 .other (.new 5) [⟨[], 1⟩]] :=
    .new (pre := []) .nil (fun ws h => way_nil h) (by simp)
  refine ⟨[.leave 0 .other (.new 5) [⟨[], 1⟩]], [.leave 1 .other (.new 6) [⟨[], 2⟩]], .new p0 ?_ ?_, by decide +kernel, by simp, ?_⟩
  · intro ws h
    rcases way_snoc (pre := []) h with h | ⟨k, e, h⟩ | ⟨k, u, fs, us, h, _⟩
    · exact way_nil h
    · cases h
    · cases h
  · simp
  · intro pre op post h u _
    have : op ∈ [Op.leave 1 .other (.new 6) [⟨[], 2⟩]] := by rw [h]; simp
    rw [List.mem_singleton.1 this]; rfl

end Verif
