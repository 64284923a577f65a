import Verif.Model.ClockLife
import Verif.Spec.Clock
import Verif.Props.Clock
/-!
# C129: starting and stopping a clock
-/
namespace Verif

open Clock ClockLife

/-- The drives of one run in order: time and value. -/
def Spec.drivesOf (i : Nat) (s : Sys) : List Drive :=
  s.drives.reverse.filterMap fun d => if d.1 = i then some (d.2.1, d.2.2) else none

/-- The last call of `start()` or `stop()`, successful or not, was `start()`. -/
def Spec.Started : List Ev → Bool → Bool
  | [], b => b
  | .start _ :: es, _ => Started es true
  | .stop :: es, _ => Started es false
  | _ :: es, b => Started es b

/-- The successful calls of `start()` of a history: time and `start_high`. Time goes on with `advance`. -/
def Spec.Starts : List Ev → Nat → Bool → List (Nat × Bool)
  | [], _, _ => []
  | .start sh :: es, t, b => if b then Starts es t true else (t, sh) :: Starts es t true
  | .stop :: es, t, _ => Starts es t false
  | .advance :: es, t, b => Starts es (t + 1) b
  | _ :: es, t, b => Starts es t b

/-- A period and a high time that a clock can have, and that the GPI can hold. -/
def Spec.Valid129 (c : Cfg) : Prop :=
  1 ≤ c.highSteps ∧ c.highSteps < c.periodSteps ∧ (c.impl = .gpi → c.periodSteps < 2 ^ 63)

/-- The event loop has nothing left to run and no callback is due. -/
def Spec.Settled129 (s : Sys) : Prop := ∀ x ∈ s.insts, x.task.scheduled = false ∧ x.due ≠ some s.now

/-- No driver is cancelled before it has been run. -/
def Spec.NotAtOnce (c : Cfg) : List Ev → Sys → Prop
  | [], _ => True
  | e :: es, s =>
    (∀ i x, (e = .cancel i ∨ (e = .stop ∧ s.cur = some i)) → s.insts[i]? = some x → x.task ≠ .sched false false) ∧
      ∀ s', step c s e = some s' → NotAtOnce c es s'

open Spec

/-- The waveform of an implementation. -/
def wav (c : Cfg) (sh : Bool) : Nat → Drive :=
  match c.impl with
  | .gpi => gpiDrives (gpiP c) (gpiH c) sh
  | .py => pyDrives sh (pyH c) (pyL c)

/-- The first `k` drives of a run. -/
def First (c : Cfg) (x : Inst) (l : List Drive) (k : Nat) : Prop :=
  l = (List.range k).map fun j => (x.t0 + (wav c x.sh j).1, (wav c x.sh j).2)

/-- A cancelled task. -/
def Gone (t : T) : Prop := t = .done ∨ ∃ b, t = .sched true b

def InstOk (c : Cfg) (now : Nat) (x : Inst) (l : List Drive) : Prop :=
  x.t0 ≤ now ∧ (∀ d ∈ l, d.1 ≤ now) ∧
  match c.impl with
  | .gpi => ∃ k, First c x l (k + 1) ∧ x.task ≠ .sched false true ∧ (x.task ≠ .done → x.due ≠ none) ∧
      ∀ d, x.due = some d → d = x.t0 + (gpiAt (gpiP c) (gpiH c) x.sh (k + 1)).1 ∧ now ≤ d ∧
        x.val = (gpiAt (gpiP c) (gpiH c) x.sh k).2.1
  | .py => ∃ k, First c x l k ∧
      match x.task with
      | .sched false false => k = 0 ∧ x.due = none ∧ now = x.t0 ∧ x.pc = .start
      | .pend => 1 ≤ k ∧ x.due = some (x.t0 + (pyAt x.sh (pyH c) (pyL c) k).1) ∧ now ≤ x.t0 + (pyAt x.sh (pyH c) (pyL c) k).1 ∧
          x.pc = (pyAt x.sh (pyH c) (pyL c) k).2 ∧ ¬ (c.highSteps ≤ 0 ∨ c.periodSteps - c.highSteps ≤ 0)
      | .sched false true => 1 ≤ k ∧ x.due = none ∧ now = x.t0 + (pyAt x.sh (pyH c) (pyL c) k).1 ∧
          x.pc = (pyAt x.sh (pyH c) (pyL c) k).2 ∧ ¬ (c.highSteps ≤ 0 ∨ c.periodSteps - c.highSteps ≤ 0)
      | _ => x.due = none

structure Inv (c : Cfg) (s : Sys) : Prop where
  ok : ∀ j x, s.insts[j]? = some x → InstOk c s.now x (drivesOf j s)
  known : ∀ d ∈ s.drives, d.1 < s.insts.length
  cur : ∀ i, s.cur = some i → i < s.insts.length
  gone : ∀ j x, s.insts[j]? = some x → s.cur ≠ some j → Gone x.task
  cfg : ∀ x ∈ s.insts, c.impl = .gpi → ∃ d, Clock.start c x.sh = .ok d

theorem drivesOf_cons (i j now : Nat) (v : Bool) (s : Sys) (l : List Inst) (cu : Option Nat) (nw : Nat) :
    drivesOf i ⟨nw, cu, l, (j, now, v) :: s.drives⟩ = drivesOf i s ++ (if j = i then [(now, v)] else []) := by
  unfold drivesOf
  simp only [List.reverse_cons, List.filterMap_append]
  congr 1
  by_cases h : j = i <;> simp [h]

theorem drivesOf_same (i : Nat) (s s' : Sys) (h : s'.drives = s.drives) : drivesOf i s' = drivesOf i s := by
  unfold drivesOf; rw [h]

theorem drivesOf_new (s : Sys) (i : Nat) (h : ∀ d ∈ s.drives, d.1 < i) : drivesOf i s = [] := by
  unfold drivesOf
  rw [List.filterMap_eq_nil_iff]
  intro d hd
  have := h d (List.mem_reverse.1 hd)
  rw [if_neg (by omega)]

theorem first_snoc {c : Cfg} {x : Inst} {l : List Drive} {k : Nat} (h : First c x l k) :
    First c x (l ++ [(x.t0 + (wav c x.sh k).1, (wav c x.sh k).2)]) (k + 1) := by
  unfold First at h ⊢
  rw [List.range_succ, List.map_append, ← h]
  rfl

/-- Replacing one run, perhaps with a drive. -/
theorem inv_put {c : Cfg} {s : Sys} (hi : Inv c s) (i : Nat) (x : Inst) (hx : s.insts[i]? = some x) (r : Inst × Option Bool)
    (hok : InstOk c s.now r.1 (drivesOf i s ++ (match r.2 with | some v => [(s.now, v)] | none => [])))
    (hg : Gone x.task → Gone r.1.task) (hsh : r.1.sh = x.sh) : Inv c (put s i r) := by
  have hlen : i < s.insts.length := (List.getElem?_eq_some_iff.1 hx).1
  have hd : ∀ j, drivesOf j (put s i r) = drivesOf j s ++ (if i = j then (match r.2 with | some v => [(s.now, v)] | none => []) else []) := by
    intro j
    unfold put
    cases hr : r.2 with
    | none => simp only [ite_self, List.append_nil]; exact drivesOf_same j s _ rfl
    | some v => simp only; exact drivesOf_cons j i s.now v s _ _ _
  have hget : ∀ j y, (put s i r).insts[j]? = some y → (j = i ∧ y = r.1) ∨ (j ≠ i ∧ s.insts[j]? = some y) := by
    intro j y hy
    simp only [put] at hy
    rw [List.getElem?_set] at hy
    by_cases e : i = j
    · subst e; rw [if_pos rfl, if_pos hlen] at hy; exact Or.inl ⟨rfl, by injection hy with hy; exact hy.symm⟩
    · rw [if_neg e] at hy; exact Or.inr ⟨fun e' => e e'.symm, hy⟩
  refine ⟨?_, ?_, ?_, ?_, ?_⟩
  · intro j y hy
    rw [hd]
    rcases hget j y hy with ⟨rfl, rfl⟩ | ⟨hne, hy⟩
    · rw [if_pos rfl]; exact hok
    · rw [if_neg (fun e => hne e.symm), List.append_nil]
      exact hi.ok j y hy
  · intro d hd'
    simp only [put, List.length_set] at hd' ⊢
    cases hr : r.2 with
    | none => rw [hr] at hd'; exact hi.known d hd'
    | some v =>
      rw [hr] at hd'
      rcases List.mem_cons.1 hd' with rfl | hd'
      · exact hlen
      · exact hi.known d hd'
  · intro j hj
    simp only [put, List.length_set] at hj ⊢
    exact hi.cur j hj
  · intro j y hy hj
    rcases hget j y hy with ⟨rfl, rfl⟩ | ⟨-, hy⟩
    · exact hg (hi.gone j x hx hj)
    · exact hi.gone j y hy hj
  · intro y hy
    obtain ⟨j, hj, rfl⟩ := List.getElem_of_mem hy
    rcases hget j _ (List.getElem?_eq_getElem hj) with ⟨-, e⟩ | ⟨-, e⟩
    · rw [e, hsh]; exact hi.cfg x (List.mem_of_getElem? hx)
    · exact hi.cfg _ (List.mem_of_getElem? e)

theorem modify_eq (s : Sys) (i : Nat) (x : Inst) (f : Inst → Inst) (hx : s.insts[i]? = some x) :
    s.insts.modify i f = s.insts.set i (f x) := by
  apply List.ext_getElem?
  intro j
  rw [List.getElem?_modify, List.getElem?_set]
  by_cases e : i = j
  · subst e
    have hlen := (List.getElem?_eq_some_iff.1 hx).1
    rw [if_pos rfl, if_pos hlen, hx]
    simp
  · simp [e]

theorem cancel_gone (c : Cfg) (x : Inst) : Gone (cancelTask c x).task := by
  unfold cancelTask
  cases h : x.task with
  | sched e b => exact Or.inr ⟨b, rfl⟩
  | pend => exact Or.inr ⟨true, rfl⟩
  | done => exact Or.inl h

theorem cancel_ok {c : Cfg} {now : Nat} {x : Inst} {l : List Drive} (h : InstOk c now x l) : InstOk c now (cancelTask c x) l := by
  obtain ⟨h1, h2, h3⟩ := h
  unfold InstOk
  cases hc : c.impl with
  | gpi =>
    rw [hc] at h3
    obtain ⟨k, a1, a2, a3, a4⟩ := h3
    unfold cancelTask
    cases ht : x.task with
    | sched e b =>
      rw [ht] at a2 a3
      exact ⟨h1, h2, k, a1, by simp, fun _ => a3 (by simp), a4⟩
    | pend =>
      rw [ht] at a2 a3
      refine ⟨h1, h2, k, a1, by simp, fun _ => ?_, ?_⟩
      · simpa [hc] using a3 (by simp)
      · simpa [hc] using a4
    | done => exact ⟨h1, h2, k, a1, by rw [ht]; simp, fun h => absurd ht h, a4⟩
  | py =>
    rw [hc] at h3
    obtain ⟨k, a1, a2⟩ := h3
    unfold cancelTask
    cases ht : x.task with
    | sched e b =>
      rw [ht] at a2
      refine ⟨h1, h2, k, a1, ?_⟩
      cases e <;> cases b <;> simp_all
    | pend => exact ⟨h1, h2, k, a1, by simp [hc]⟩
    | done =>
      rw [ht] at a2
      refine ⟨h1, h2, k, a1, ?_⟩
      rw [ht]; exact a2

theorem cancel_sh (c : Cfg) (x : Inst) : (cancelTask c x).sh = x.sh := by
  unfold cancelTask; split <;> rfl

theorem inv_cancel {c : Cfg} {s : Sys} (hi : Inv c s) (i : Nat) (hlen : i < s.insts.length) :
    Inv c { s with insts := s.insts.modify i (cancelTask c) } ∧ Inv c { s with cur := if s.cur = some i then none else s.cur, insts := s.insts.modify i (cancelTask c) } := by
  have hx : s.insts[i]? = some s.insts[i] := List.getElem?_eq_getElem hlen
  have h := inv_put hi i _ hx (cancelTask c s.insts[i], none) (by simpa using cancel_ok (hi.ok i _ hx))
    (fun _ => cancel_gone c _) (cancel_sh c _)
  have e : put s i (cancelTask c s.insts[i], none) = { s with insts := s.insts.modify i (cancelTask c) } := by
    simp only [put]; rw [modify_eq s i _ _ hx]
  rw [e] at h
  refine ⟨h, h.ok, h.known, ?_, ?_, h.cfg⟩
  · intro j hj
    simp only at hj
    split at hj
    · cases hj
    · exact h.cur j hj
  · intro j y hy hj
    simp only at hj
    by_cases hc : s.cur = some i
    · by_cases e : j = i
      · subst e
        simp only [List.getElem?_modify, hx] at hy
        simp at hy
        rw [← hy]; exact cancel_gone c _
      · exact h.gone j y hy (by rw [hc]; simp; exact fun h => e h.symm)
    · rw [if_neg hc] at hj
      exact h.gone j y hy hj

theorem inv_step {c : Cfg} {s s' : Sys} (hi : Inv c s) (e : Ev) (h : step c s e = some s') : Inv c s' := by
  cases e with
  | start sh =>
    simp only [step, startOp] at h
    by_cases hcur : s.cur = none
    · rw [if_neg (by simp [hcur])] at h
      have hnew := drivesOf_new s s.insts.length hi.known
      -- a new run at the end
      have key : ∀ (x : Inst) (ds : List (Nat × Nat × Bool)),
          (ds = s.drives ∨ ∃ v, ds = (s.insts.length, s.now, v) :: s.drives) →
          InstOk c s.now x (drivesOf s.insts.length ⟨s.now, some s.insts.length, s.insts ++ [x], ds⟩) →
          (c.impl = .gpi → ∃ d, Clock.start c x.sh = .ok d) → Inv c ⟨s.now, some s.insts.length, s.insts ++ [x], ds⟩ := by
        intro x ds hds hok hcfg
        refine ⟨?_, ?_, ?_, ?_, ?_⟩
        · intro j y hy
          rw [List.getElem?_append] at hy
          split at hy
          · have : drivesOf j ⟨s.now, some s.insts.length, s.insts ++ [x], ds⟩ = drivesOf j s := by
              rcases hds with rfl | ⟨v, rfl⟩
              · exact drivesOf_same j s _ rfl
              · rw [drivesOf_cons, if_neg (by omega), List.append_nil]
            rw [this]
            exact hi.ok j y hy
          · rename_i hj
            have hj' : j = s.insts.length := by
              have := (List.getElem?_eq_some_iff.1 hy).1
              simp at this; omega
            subst hj'
            simp at hy
            subst hy
            exact hok
        · intro d hd
          simp only [List.length_append, List.length_cons, List.length_nil] at hd ⊢
          rcases hds with rfl | ⟨v, rfl⟩
          · have := hi.known d hd; omega
          · rcases List.mem_cons.1 hd with rfl | hd
            · simp
            · have := hi.known d hd; omega
        · intro i hi'
          simp only [Option.some.injEq] at hi'
          simp; omega
        · intro j y hy hj
          rw [List.getElem?_append] at hy
          split at hy
          · exact hi.gone j y hy (by rw [hcur]; simp)
          · rename_i hj'
            have : j = s.insts.length := by
              have := (List.getElem?_eq_some_iff.1 hy).1
              simp at this; omega
            exact absurd (by rw [this]) hj
        · intro y hy
          rcases List.mem_append.1 hy with hy | hy
          · exact hi.cfg y hy
          · simp at hy; subst hy; exact hcfg
      cases hc : c.impl with
      | gpi =>
        rw [hc] at h
        simp only at h
        cases hst : Clock.start c sh with
        | error e => rw [hst] at h; simp only [Option.some.injEq] at h; rw [← h]; exact hi
        | ok d =>
          rw [hst] at h
          simp only [Option.some.injEq] at h
          rw [← h]
          refine key _ _ (Or.inr ⟨_, rfl⟩) ?_ (fun _ => ⟨d, hst⟩)
          rw [drivesOf_cons, if_pos rfl, hnew]
          refine ⟨Nat.le_refl _, by simp, ?_⟩
          rw [hc]
          refine ⟨0, ?_, by simp, by simp, ?_⟩
          · simp [First, wav, hc, gpiDrives, gpiAt, gpiToggle]
          · intro d hd
            simp only [Option.some.injEq] at hd
            subst hd
            refine ⟨?_, by simp, by simp [gpiAt, gpiToggle]⟩
            simp [gpiAt, gpiToggle]
      | py =>
        rw [hc] at h
        simp only [Option.some.injEq] at h
        rw [← h]
        refine key _ _ (Or.inl rfl) ?_ (fun e => by rw [hc] at e; cases e)
        have hs := (drivesOf_same s.insts.length s ⟨s.now, some s.insts.length, s.insts ++ [⟨.sched false false, none, .start, sh, sh, s.now⟩], s.drives⟩ rfl).trans hnew
        rw [hs]
        refine ⟨Nat.le_refl _, by simp, ?_⟩
        rw [hc]
        exact ⟨0, by simp [First], rfl, rfl, rfl, rfl⟩
    · rw [if_pos hcur] at h
      simp only [Option.some.injEq] at h
      rw [← h]; exact hi
  | stop =>
    simp only [step, stopOp] at h
    cases hc : s.cur with
    | none => rw [hc] at h; simp only [Option.some.injEq] at h; rw [← h]; exact hi
    | some i =>
      rw [hc] at h
      simp only [Option.some.injEq] at h
      have := (inv_cancel hi i (hi.cur i hc)).2
      rw [if_pos hc] at this
      rw [← h]; exact this
  | cancel i =>
    simp only [step] at h
    split at h
    · rename_i hl
      simp only [Option.some.injEq] at h
      rw [← h]; exact (inv_cancel hi i hl).1
    · cases h
  | resume i =>
    simp only [step] at h
    cases hx : s.insts[i]? with
    | none => rw [hx] at h; cases h
    | some x =>
      rw [hx] at h
      simp only at h
      split at h
      · rename_i hs
        simp only [Option.some.injEq] at h
        rw [← h]
        obtain ⟨o1, o2, o3⟩ := hi.ok i x hx
        apply inv_put hi i x hx
        · unfold resume
          cases ht : x.task with
          | pend => rw [ht] at hs; cases hs
          | done => rw [ht] at hs; cases hs
          | sched exc b =>
            cases exc with
            | true =>
              simp only [List.append_nil]
              refine ⟨o1, o2, ?_⟩
              cases hc : c.impl with
              | gpi =>
                rw [hc] at o3
                obtain ⟨k, a1, a2, a3, a4⟩ := o3
                refine ⟨k, a1, by simp, by simp, ?_⟩
                intro d hd
                simp only [true_and] at hd
                split at hd
                · cases hd
                · exact a4 d hd
              | py =>
                rw [hc] at o3
                obtain ⟨k, a1, a2⟩ := o3
                rw [ht] at a2
                exact ⟨k, a1, by simpa using a2⟩
            | false =>
              cases hc : c.impl with
              | gpi =>
                rw [hc] at o3
                obtain ⟨k, a1, a2, a3, a4⟩ := o3
                simp only [List.append_nil]
                refine ⟨o1, o2, ?_⟩
                rw [hc]
                exact ⟨k, a1, by simp, fun _ => a3 (by rw [ht]; simp), a4⟩
              | py =>
                rw [hc] at o3
                obtain ⟨k, a1, a2⟩ := o3
                rw [ht] at a2
                simp only
                split
                · rename_i hbad
                  obtain ⟨hb, hbad⟩ := hbad
                  subst hb
                  simp only [List.append_nil]
                  refine ⟨o1, o2, ?_⟩
                  rw [hc]
                  exact ⟨k, a1, a2.2.1⟩
                · rename_i hgood
                  -- the drive that comes now
                  have hk : s.now = x.t0 + (pyAt x.sh (pyH c) (pyL c) k).1 ∧ x.pc = (pyAt x.sh (pyH c) (pyL c) k).2 ∧
                      ¬ (c.highSteps ≤ 0 ∨ c.periodSteps - c.highSteps ≤ 0) := by
                    cases b with
                    | false =>
                      obtain ⟨rfl, _, h3, h4⟩ := a2
                      exact ⟨by simpa [pyAt] using h3, by simpa [pyAt] using h4, fun hb => hgood ⟨rfl, hb⟩⟩
                    | true => exact ⟨a2.2.2.1, a2.2.2.2.1, a2.2.2.2.2⟩
                  refine ⟨o1, ?_, ?_⟩
                  · intro d hd
                    rcases List.mem_append.1 hd with hd | hd
                    · exact o2 d hd
                    · simp at hd; rw [hd]
                  · rw [hc]
                    refine ⟨k + 1, ?_, ?_⟩
                    · have := first_snoc a1
                      simp only [wav, hc, pyDrives] at this
                      rw [hk.1, hk.2.1]
                      exact this
                    · refine ⟨by omega, ?_, ?_, ?_, hk.2.2⟩
                      · simp only [pyAt, Option.some.injEq]
                        rw [hk.2.1]
                        generalize pyStep x.sh (pyH c) (pyL c) (pyAt x.sh (pyH c) (pyL c) k).2 = q
                        omega
                      · simp only [pyAt]
                        omega
                      · simp only [pyAt]; rw [hk.2.1]
        · intro hg
          rcases hg with hg | ⟨b, hg⟩
          · rw [hg] at hs; cases hs
          · unfold resume; rw [hg]; exact Or.inl rfl
        · unfold resume
          split
          · rfl
          · split
            · rfl
            · split <;> rfl
          · rfl
      · cases h
  | fire i =>
    simp only [step] at h
    cases hx : s.insts[i]? with
    | none => rw [hx] at h; cases h
    | some x =>
      rw [hx] at h
      simp only at h
      split at h
      · rename_i hs
        obtain ⟨hs, hdue⟩ := hs
        simp only [Option.some.injEq] at h
        rw [← h]
        obtain ⟨o1, o2, o3⟩ := hi.ok i x hx
        cases hc : c.impl with
        | gpi =>
          rw [hc] at o3
          obtain ⟨k, a1, a2, a3, a4⟩ := o3
          obtain ⟨b1, b2, b3⟩ := a4 _ hdue
          apply inv_put hi i x hx
          · simp only [fire, hc]
            refine ⟨o1, ?_, ?_⟩
            · intro d hd
              rcases List.mem_append.1 hd with hd | hd
              · exact o2 d hd
              · simp at hd; rw [hd]
            · rw [hc]
              refine ⟨k + 1, ?_, a2, by simp, ?_⟩
              · have := first_snoc a1
                simp only [wav, hc, gpiDrives] at this
                rw [← b1] at this
                have e : (gpiAt (gpiP c) (gpiH c) x.sh (k + 1)).2.1 = (gpiToggle (gpiP c) (gpiH c) false x.val).1 := by
                  rw [b3]; rfl
                rw [e] at this
                exact this
              · intro d hd
                simp only [Option.some.injEq] at hd
                subst hd
                refine ⟨?_, by omega, ?_⟩
                · rw [show (gpiAt (gpiP c) (gpiH c) x.sh (k + 1 + 1)).1 = (gpiAt (gpiP c) (gpiH c) x.sh (k + 1)).1 +
                    (gpiAt (gpiP c) (gpiH c) x.sh (k + 1)).2.2 from rfl]
                  have e : (gpiAt (gpiP c) (gpiH c) x.sh (k + 1)).2.2 = (gpiToggle (gpiP c) (gpiH c) false x.val).2 := by
                    rw [b3]; rfl
                  rw [e]; simp only; omega
                · rw [b3]; rfl
          · intro hg; simp only [fire, hc]; exact hg
          · simp only [fire, hc]
        | py =>
          rw [hc] at o3
          obtain ⟨k, a1, a2⟩ := o3
          have ht : x.task = .pend := by
            cases ht : x.task with
            | pend => rfl
            | done => rw [ht] at a2; simp only at a2; rw [a2] at hdue; cases hdue
            | sched e b =>
              have := List.all_eq_true.1 hs x (List.mem_of_getElem? hx)
              rw [ht] at this; simp [T.scheduled] at this
          rw [ht] at a2
          obtain ⟨b1, b2, b3, b4, b5⟩ := a2
          apply inv_put hi i x hx
          · simp only [fire, hc, List.append_nil]
            refine ⟨o1, o2, ?_⟩
            rw [hc]
            refine ⟨k, a1, b1, rfl, ?_, b4, b5⟩
            rw [b2] at hdue
            injection hdue with hdue
            exact hdue.symm
          · intro hg
            rcases hg with hg | ⟨b, hg⟩ <;> rw [ht] at hg <;> cases hg
          · simp only [fire, hc]
      · cases h
  | advance =>
    simp only [step] at h
    split at h
    · rename_i hs
      simp only [Option.some.injEq] at h
      rw [← h]
      refine ⟨?_, hi.known, hi.cur, hi.gone, hi.cfg⟩
      intro j x hx
      have hall := List.all_eq_true.1 hs x (List.mem_of_getElem? hx)
      simp only [Bool.and_eq_true, Bool.not_eq_true', decide_eq_true_eq] at hall
      obtain ⟨o1, o2, o3⟩ := hi.ok j x hx
      rw [drivesOf_same j s ⟨s.now + 1, s.cur, s.insts, s.drives⟩ rfl]
      refine ⟨by simp only; omega, fun d hd => by have := o2 d hd; simp only; omega, ?_⟩
      cases hc : c.impl with
      | gpi =>
        rw [hc] at o3
        obtain ⟨k, a1, a2, a3, a4⟩ := o3
        refine ⟨k, a1, a2, a3, ?_⟩
        intro d hd
        obtain ⟨b1, b2, b3⟩ := a4 d hd
        refine ⟨b1, ?_, b3⟩
        have : d ≠ s.now := by rintro rfl; exact hall.2 hd
        simp only; omega
      | py =>
        rw [hc] at o3
        obtain ⟨k, a1, a2⟩ := o3
        refine ⟨k, a1, ?_⟩
        cases ht : x.task with
        | sched e b => rw [ht] at hall; simp [T.scheduled] at hall
        | done => rw [ht] at a2; exact a2
        | pend =>
          rw [ht] at a2
          obtain ⟨b1, b2, b3, b4⟩ := a2
          refine ⟨b1, b2, ?_, b4⟩
          have : x.t0 + (pyAt x.sh (pyH c) (pyL c) k).1 ≠ s.now := by
            intro e; rw [e] at b2; exact hall.2 b2
          simp only; omega
    · cases h
  | free i =>
    simp only [step] at h
    cases hx : s.insts[i]? with
    | none => rw [hx] at h; cases h
    | some x =>
      rw [hx] at h
      simp only at h
      split at h
      · rename_i ht
        simp only [Option.some.injEq] at h
        rw [← h]
        obtain ⟨o1, o2, o3⟩ := hi.ok i x hx
        apply inv_put hi i x hx
        · simp only [List.append_nil]
          refine ⟨o1, o2, ?_⟩
          cases hc : c.impl with
          | gpi =>
            rw [hc] at o3
            obtain ⟨k, a1, a2, a3, a4⟩ := o3
            exact ⟨k, a1, a2, fun hne => absurd ht hne, fun d hd => by cases hd⟩
          | py =>
            rw [hc] at o3
            obtain ⟨k, a1, a2⟩ := o3
            refine ⟨k, a1, ?_⟩
            rw [ht]
        · intro _; exact Or.inl ht
        · rfl
      · cases h

theorem inv_init (c : Cfg) : Inv c init := by
  refine ⟨?_, ?_, ?_, ?_, ?_⟩ <;> simp [init]

theorem inv_run {c : Cfg} : ∀ (es : List Ev) {s s' : Sys}, Inv c s → run c es s = some s' → Inv c s'
  | [], s, s', hi, h => by simp only [run, Option.some.injEq] at h; rw [← h]; exact hi
  | e :: es, s, s', hi, h => by
    simp only [run] at h
    split at h
    · rename_i s1 h1
      exact inv_run es (inv_step hi e h1) h
    · cases h


theorem valid_start {c : Cfg} (hv : Valid129 c) (sh : Bool) : ∃ d, Clock.start c sh = .ok d ∧ d = wav c sh ∧
    ∀ t v, ValueAt d t v ↔ v = wave c.periodSteps.toNat c.highSteps.toNat sh t := by
  obtain ⟨h1, h2, h3⟩ := hv
  obtain ⟨d, hd, -, -, hw⟩ := (C25_start c sh (fun h => by have := h3 h; omega)).1 ⟨h1, h2⟩
  refine ⟨d, hd, ?_, hw⟩
  unfold Clock.start at hd
  unfold wav
  cases hc : c.impl with
  | gpi =>
    rw [hc] at hd
    simp only at hd
    split at hd
    · cases hd
    · injection hd with hd; exact hd.symm
  | py =>
    rw [hc] at hd
    simp only at hd
    rw [if_neg (by omega), if_neg (by omega)] at hd
    injection hd with hd; exact hd.symm

theorem startOp_ok {c : Cfg} (hv : Valid129 c) (sh : Bool) (s : Sys) (h : s.cur = none) :
    ∃ s' x, startOp c sh s = .ok s' ∧ s'.cur = some s.insts.length ∧ s'.now = s.now ∧ s'.insts = s.insts ++ [x] ∧ x.t0 = s.now ∧
      x.sh = sh ∧ x.task = .sched false false ∧
      (s'.drives = if c.impl = .gpi then (s.insts.length, s.now, sh) :: s.drives else s.drives) := by
  obtain ⟨d, hd, -⟩ := valid_start hv sh
  unfold startOp
  rw [if_neg (by simp [h])]
  cases hc : c.impl with
  | gpi =>
    simp only [hd]
    exact ⟨_, _, rfl, rfl, rfl, rfl, rfl, rfl, rfl, by simp [gpiToggle]⟩
  | py => exact ⟨_, _, rfl, rfl, rfl, rfl, rfl, rfl, rfl, by simp⟩

/-- What an event does to the clock object and to what does not change of its runs. -/
theorem step_shape {c : Cfg} (hv : Valid129 c) {s s' : Sys} {e : Ev} (h : step c s e = some s') (t : Nat) (b : Bool) (ht : s.now = t)
    (hb : s.cur.isSome = b) (es : List Ev) :
    s'.cur.isSome = Started [e] b ∧
    s.insts.map (fun x => (x.t0, x.sh)) ++ Starts (e :: es) t b = s'.insts.map (fun x => (x.t0, x.sh)) ++ Starts es s'.now s'.cur.isSome := by
  have hput : ∀ (i : Nat) (x : Inst) (r : Inst × Option Bool), s.insts[i]? = some x → r.1.t0 = x.t0 → r.1.sh = x.sh →
      (put s i r).insts.map (fun x => (x.t0, x.sh)) = s.insts.map (fun x => (x.t0, x.sh)) := by
    intro i x r hx h1 h2
    simp only [put]
    rw [List.map_set]
    apply List.ext_getElem?
    intro j
    rw [List.getElem?_set]
    by_cases e : i = j
    · subst e
      rw [if_pos rfl]
      simp only [List.length_map, List.getElem?_map, hx, Option.map_some]
      rw [if_pos (List.getElem?_eq_some_iff.1 hx).1, h1, h2]
    · rw [if_neg e]
  have hmod : ∀ i, (s.insts.modify i (cancelTask c)).map (fun x => (x.t0, x.sh)) = s.insts.map (fun x => (x.t0, x.sh)) := by
    intro i
    apply List.ext_getElem?
    intro j
    simp only [List.getElem?_map, List.getElem?_modify]
    cases s.insts[j]? with
    | none => simp
    | some x =>
      by_cases e : i = j
      · subst e
        simp only [Option.map_eq_map, Option.map_some, if_true, cancelTask]
        split <;> rfl
      · simp [e]
  subst ht hb
  cases e with
  | start sh =>
    simp only [step] at h
    by_cases hc : s.cur = none
    · obtain ⟨s1, x, h1, h2, h3, h4, h5, h6, -⟩ := startOp_ok hv sh s hc
      rw [h1] at h
      simp only [Option.some.injEq] at h
      subst h
      rw [h2, h3, h4, hc]
      simp [Starts, Started, h5, h6]
    · have : startOp c sh s = .error .runtimeError := by unfold startOp; rw [if_pos hc]
      rw [this] at h
      simp only [Option.some.injEq] at h
      subst h
      have : s.cur.isSome = true := by cases hs : s.cur <;> simp_all
      simp [Starts, Started, this]
  | stop =>
    simp only [step, stopOp] at h
    cases hc : s.cur with
    | none =>
      rw [hc] at h
      simp only [Option.some.injEq] at h
      subst h
      simp [Starts, Started, hc]
    | some i =>
      rw [hc] at h
      simp only [Option.some.injEq] at h
      subst h
      simp only [hmod]
      simp [Starts, Started]
  | cancel i =>
    simp only [step] at h
    split at h
    · simp only [Option.some.injEq] at h
      subst h
      simp only [hmod]
      simp [Starts, Started]
    · cases h
  | advance =>
    simp only [step] at h
    split at h
    · simp only [Option.some.injEq] at h
      subst h
      simp [Starts, Started]
    · cases h
  | resume i =>
    simp only [step] at h
    cases hx : s.insts[i]? with
    | none => rw [hx] at h; cases h
    | some x =>
      rw [hx] at h
      simp only at h
      split at h
      · simp only [Option.some.injEq] at h
        subst h
        have e : (resume c s.now x).1.t0 = x.t0 ∧ (resume c s.now x).1.sh = x.sh := by
          unfold resume
          split
          · exact ⟨rfl, rfl⟩
          · split
            · exact ⟨rfl, rfl⟩
            · split <;> exact ⟨rfl, rfl⟩
          · exact ⟨rfl, rfl⟩
        rw [hput i x _ hx e.1 e.2]
        simp [Starts, Started, put]
      · cases h
  | fire i =>
    simp only [step] at h
    cases hx : s.insts[i]? with
    | none => rw [hx] at h; cases h
    | some x =>
      rw [hx] at h
      simp only at h
      split at h
      · simp only [Option.some.injEq] at h
        subst h
        have e : (fire c s.now x).1.t0 = x.t0 ∧ (fire c s.now x).1.sh = x.sh := by
          unfold fire; split <;> exact ⟨rfl, rfl⟩
        rw [hput i x _ hx e.1 e.2]
        simp [Starts, Started, put]
      · cases h
  | free i =>
    simp only [step] at h
    cases hx : s.insts[i]? with
    | none => rw [hx] at h; cases h
    | some x =>
      rw [hx] at h
      simp only at h
      split at h
      · simp only [Option.some.injEq] at h
        subst h
        rw [hput i x _ hx rfl rfl]
        simp [Starts, Started, put]
      · cases h

theorem started_one (e : Ev) (es : List Ev) (b : Bool) : Started (e :: es) b = Started es (Started [e] b) := by
  cases e <;> rfl

theorem run_shape {c : Cfg} (hv : Valid129 c) : ∀ (es : List Ev) {s s' : Sys}, run c es s = some s' →
    s'.cur.isSome = Started es s.cur.isSome ∧
    s'.insts.map (fun x => (x.t0, x.sh)) = s.insts.map (fun x => (x.t0, x.sh)) ++ Starts es s.now s.cur.isSome
  | [], s, s', h => by
    simp only [run, Option.some.injEq] at h
    subst h
    simp [Started, Starts]
  | e :: es, s, s', h => by
    simp only [run] at h
    split at h
    · rename_i s1 h1
      obtain ⟨a, b⟩ := step_shape hv h1 s.now s.cur.isSome rfl rfl es
      obtain ⟨a', b'⟩ := run_shape hv es h
      rw [started_one, ← a, b, b']
      exact ⟨a', rfl⟩
    · cases h

/-- C129: after any history `start()` raises RuntimeError if the clock has been started and not stopped since, and
succeeds otherwise; `stop()` is the other way round. -/
theorem C129_raises (c : Cfg) (hv : Valid129 c) (es : List Ev) (s : Sys) (h : run c es init = some s) :
    (∀ sh, (Started es false = true → startOp c sh s = .error .runtimeError) ∧
      (Started es false = false → ∃ s', startOp c sh s = .ok s')) ∧
    (Started es false = true → ∃ s', stopOp c s = .ok s') ∧ (Started es false = false → stopOp c s = .error .runtimeError) := by
  obtain ⟨a, -⟩ := run_shape hv es h
  have a : s.cur.isSome = Started es false := a
  rw [← a]
  refine ⟨fun sh => ⟨?_, ?_⟩, ?_, ?_⟩
  · intro hc
    unfold startOp
    rw [if_pos (by intro e; rw [e] at hc; cases hc)]
  · intro hc
    have hc : s.cur = none := by simpa using hc
    obtain ⟨s1, x, h1, -⟩ := startOp_ok hv sh s hc
    exact ⟨s1, h1⟩
  · intro hc
    unfold stopOp
    cases hs : s.cur with
    | none => rw [hs] at hc; cases hc
    | some i => exact ⟨_, rfl⟩
  · intro hc
    have hc : s.cur = none := by simpa using hc
    unfold stopOp
    rw [hc]

example : Valid129 ⟨10, 3, .py⟩ ∧ (run ⟨10, 3, .py⟩ [.start true, .resume 0, .stop, .start false] init).isSome = true := by
  refine ⟨by simp [Valid129], by decide⟩

/-- C129: whatever happens, what a run of the clock drives is a beginning of the waveform of a clock that is started once
(`Clock.start`, C25), from the time of its `start()` on. -/
theorem C129_waveform (c : Cfg) (hv : Valid129 c) (es : List Ev) (s : Sys) (h : run c es init = some s) (j t0 : Nat) (sh : Bool)
    (hj : (Starts es 0 false)[j]? = some (t0, sh)) :
    ∃ d k, Clock.start c sh = .ok d ∧ drivesOf j s = (List.range k).map fun i => (t0 + (d i).1, (d i).2) := by
  obtain ⟨-, b⟩ := run_shape hv es h
  have b : s.insts.map (fun x => (x.t0, x.sh)) = Starts es 0 false := by simpa [init] using b
  rw [← b, List.getElem?_map] at hj
  cases hx : s.insts[j]? with
  | none => rw [hx] at hj; cases hj
  | some x =>
    rw [hx] at hj
    simp only [Option.map_some, Option.some.injEq, Prod.mk.injEq] at hj
    obtain ⟨rfl, rfl⟩ := hj
    obtain ⟨d, hd, rfl, -⟩ := valid_start hv x.sh
    refine ⟨wav c x.sh, ?_⟩
    have hi := (inv_run es (inv_init c) h).ok j x hx
    obtain ⟨-, -, o⟩ := hi
    cases hc : c.impl with
    | gpi =>
      rw [hc] at o
      obtain ⟨k, a, -⟩ := o
      exact ⟨k + 1, hd, a⟩
    | py =>
      rw [hc] at o
      obtain ⟨k, a, -⟩ := o
      exact ⟨k, hd, a⟩

/-- C129: every drive belongs to one of the runs. -/
theorem C129_drives (c : Cfg) (hv : Valid129 c) (es : List Ev) (s : Sys) (h : run c es init = some s) (j t : Nat) (v : Bool)
    (hd : (j, t, v) ∈ s.drives) : j < (Starts es 0 false).length ∧ t ≤ s.now := by
  obtain ⟨-, b⟩ := run_shape hv es h
  have b : s.insts.map (fun x => (x.t0, x.sh)) = Starts es 0 false := by simpa [init] using b
  have hi := inv_run es (inv_init c) h
  have hl := hi.known _ hd
  refine ⟨by rw [← b]; simpa using hl, ?_⟩
  obtain ⟨-, o, -⟩ := hi.ok j _ (List.getElem?_eq_getElem hl)
  refine o (t, v) ?_
  unfold drivesOf
  rw [List.mem_filterMap]
  exact ⟨(j, t, v), List.mem_reverse.2 hd, by simp⟩

/-! ## Stopping -/

/-- C129, the full claim about stopping: after `stop()` the clock does not drive its signal until it is started again. -/
def C129_stop_full : Prop :=
  ∀ (c : Cfg) (_ : Valid129 c) (es es' : List Ev) (s s' : Sys), run c es init = some s → Started es false = false →
    run c es' s = some s' → (∀ sh, .start sh ∉ es') → s'.drives = s.drives

/-- C129: false of the code: a GPI clock that is started and stopped before its task has run is never stopped, as the
coroutine that would stop it in its `finally` is not entered. -/
theorem C129_stop_counterexample : ¬ C129_stop_full := by
  intro h
  have hv : Valid129 ⟨2, 1, .gpi⟩ := by simp [Valid129]
  have h := h ⟨2, 1, .gpi⟩ hv [.start true, .stop] [.resume 0, .advance, .fire 0]
    ⟨0, none, [⟨.sched true false, some 1, .start, true, true, 0⟩], [(0, 0, true)]⟩
    ⟨1, none, [⟨.done, some 2, .start, false, true, 0⟩], [(0, 1, false), (0, 0, true)]⟩
    (by decide) (by decide) (by decide) (by simp)
  revert h; decide

/-- A cancelled run that drives no more. -/
def Quiet (c : Cfg) (x : Inst) : Prop :=
  (x.task = .done ∧ x.due = none) ∨ ∃ b, x.task = .sched true b ∧ (c.impl = .gpi → b = true) ∧ (c.impl = .py → x.due = none)

theorem quiet_cancel {c : Cfg} {x : Inst} (h : Quiet c x) : cancelTask c x = x := by
  unfold cancelTask
  rcases h with ⟨h, -⟩ | ⟨b, h, -⟩
  · rw [h]
  · rw [h]
    simp only
    cases x; simp_all

theorem quiet_resume {c : Cfg} {x : Inst} {now : Nat} (h : Quiet c x) (hs : x.task.scheduled = true) :
    (resume c now x).2 = none ∧ (resume c now x).1.task = .done ∧ (resume c now x).1.due = none := by
  rcases h with ⟨h, -⟩ | ⟨b, h, h1, h2⟩
  · rw [h] at hs; cases hs
  · unfold resume
    rw [h]
    refine ⟨rfl, rfl, ?_⟩
    simp only
    cases hc : c.impl with
    | gpi => rw [if_pos ⟨rfl, h1 hc⟩]
    | py => rw [if_neg (by simp)]; exact h2 hc

/-- Runs that are quiet stay so and drive nothing, while the others do what they do. -/
theorem quiet_step {c : Cfg} {s s' : Sys} {e : Ev} (h : step c s e = some s') (j : Nat) (x : Inst) (hx : s.insts[j]? = some x)
    (hq : Quiet c x) : ∃ x', s'.insts[j]? = some x' ∧ Quiet c x' := by
  have hput : ∀ (i : Nat) (y : Inst) (r : Inst × Option Bool), s.insts[i]? = some y → (i = j → Quiet c r.1) →
      ∃ x', (put s i r).insts[j]? = some x' ∧ Quiet c x' := by
    intro i y r hy hr
    simp only [put]
    rw [List.getElem?_set]
    by_cases e : i = j
    · subst e
      rw [if_pos rfl, if_pos (List.getElem?_eq_some_iff.1 hy).1]
      exact ⟨_, rfl, hr rfl⟩
    · rw [if_neg e]
      exact ⟨x, hx, hq⟩
  have hmod : ∀ i, ∃ x', (s.insts.modify i (cancelTask c))[j]? = some x' ∧ Quiet c x' := by
    intro i
    rw [List.getElem?_modify, hx]
    by_cases e : i = j
    · simp only [if_pos e]; exact ⟨_, rfl, by simp only; rw [quiet_cancel hq]; exact hq⟩
    · simp only [if_neg e]; exact ⟨_, rfl, hq⟩
  cases e with
  | start sh =>
    simp only [step, startOp] at h
    by_cases hcur : s.cur = none
    · rw [if_neg (by simp [hcur])] at h
      have happ : ∀ y, (s.insts ++ [y])[j]? = some x := by
        intro y; rw [List.getElem?_append_left (List.getElem?_eq_some_iff.1 hx).1]; exact hx
      cases hc : c.impl with
      | gpi =>
        rw [hc] at h
        simp only at h
        cases hst : Clock.start c sh with
        | error e => rw [hst] at h; simp only [Option.some.injEq] at h; subst h; exact ⟨x, hx, hq⟩
        | ok d => rw [hst] at h; simp only [Option.some.injEq] at h; subst h; exact ⟨x, happ _, hq⟩
      | py => rw [hc] at h; simp only [Option.some.injEq] at h; subst h; exact ⟨x, happ _, hq⟩
    · rw [if_pos hcur] at h
      simp only [Option.some.injEq] at h
      subst h; exact ⟨x, hx, hq⟩
  | stop =>
    simp only [step, stopOp] at h
    cases hc : s.cur with
    | none => rw [hc] at h; simp only [Option.some.injEq] at h; subst h; exact ⟨x, hx, hq⟩
    | some i => rw [hc] at h; simp only [Option.some.injEq] at h; subst h; exact hmod i
  | cancel i =>
    simp only [step] at h
    split at h
    · simp only [Option.some.injEq] at h; subst h; exact hmod i
    · cases h
  | advance =>
    simp only [step] at h
    split at h
    · simp only [Option.some.injEq] at h; subst h; exact ⟨x, hx, hq⟩
    · cases h
  | resume i =>
    simp only [step] at h
    cases hy : s.insts[i]? with
    | none => rw [hy] at h; cases h
    | some y =>
      rw [hy] at h
      simp only at h
      split at h
      · rename_i hs
        simp only [Option.some.injEq] at h
        subst h
        refine hput i y _ hy ?_
        intro e
        subst e
        rw [hx] at hy
        injection hy with hy
        subst hy
        exact Or.inl (quiet_resume hq hs).2
      · cases h
  | fire i =>
    simp only [step] at h
    cases hy : s.insts[i]? with
    | none => rw [hy] at h; cases h
    | some y =>
      rw [hy] at h
      simp only at h
      split at h
      · rename_i hs
        simp only [Option.some.injEq] at h
        subst h
        refine hput i y _ hy ?_
        intro e
        subst e
        rw [hx] at hy
        injection hy with hy
        subst hy
        have := List.all_eq_true.1 hs.1 x (List.mem_of_getElem? hx)
        rcases hq with ⟨-, hd⟩ | ⟨b, ht, -⟩
        · rw [hd] at hs; cases hs.2
        · rw [ht] at this; simp [T.scheduled] at this
      · cases h
  | free i =>
    simp only [step] at h
    cases hy : s.insts[i]? with
    | none => rw [hy] at h; cases h
    | some y =>
      rw [hy] at h
      simp only at h
      split at h
      · rename_i hs
        simp only [Option.some.injEq] at h
        subst h
        exact hput i y _ hy (fun _ => Or.inl ⟨hs, rfl⟩)
      · cases h

/-- Only a run that is not quiet drives. -/
theorem quiet_drives {c : Cfg} {s s' : Sys} {e : Ev} (h : step c s e = some s') (he : ∀ sh, e ≠ .start sh) :
    s'.drives = s.drives ∨ ∃ i x v, s.insts[i]? = some x ∧ ¬ Quiet c x ∧ s'.drives = (i, s.now, v) :: s.drives := by
  cases e with
  | start sh => exact absurd rfl (he sh)
  | stop =>
    simp only [step, stopOp] at h
    cases hc : s.cur with
    | none => rw [hc] at h; simp only [Option.some.injEq] at h; subst h; exact Or.inl rfl
    | some i => rw [hc] at h; simp only [Option.some.injEq] at h; subst h; exact Or.inl rfl
  | cancel i =>
    simp only [step] at h
    split at h
    · simp only [Option.some.injEq] at h; subst h; exact Or.inl rfl
    · cases h
  | advance =>
    simp only [step] at h
    split at h
    · simp only [Option.some.injEq] at h; subst h; exact Or.inl rfl
    · cases h
  | resume i =>
    simp only [step] at h
    cases hy : s.insts[i]? with
    | none => rw [hy] at h; cases h
    | some y =>
      rw [hy] at h
      simp only at h
      split at h
      · rename_i hs
        simp only [Option.some.injEq] at h
        subst h
        cases hr : (resume c s.now y).2 with
        | none => left; simp [put, hr]
        | some v =>
          refine Or.inr ⟨i, y, v, hy, ?_, by simp [put, hr]⟩
          intro hq
          rw [(quiet_resume hq hs).1] at hr
          cases hr
      · cases h
  | fire i =>
    simp only [step] at h
    cases hy : s.insts[i]? with
    | none => rw [hy] at h; cases h
    | some y =>
      rw [hy] at h
      simp only at h
      split at h
      · rename_i hs
        simp only [Option.some.injEq] at h
        subst h
        cases hr : (fire c s.now y).2 with
        | none => left; simp [put, hr]
        | some v =>
          refine Or.inr ⟨i, y, v, hy, ?_, by simp [put, hr]⟩
          rintro (⟨-, hd⟩ | ⟨b, ht, -⟩)
          · rw [hd] at hs; cases hs.2
          · have := List.all_eq_true.1 hs.1 y (List.mem_of_getElem? hy)
            rw [ht] at this; simp [T.scheduled] at this
      · cases h
  | free i =>
    simp only [step] at h
    cases hy : s.insts[i]? with
    | none => rw [hy] at h; cases h
    | some y =>
      rw [hy] at h
      simp only at h
      split at h
      · simp only [Option.some.injEq] at h
        subst h
        left; simp [put]
      · cases h


/-- Every cancelled run is quiet. -/
def ClkCalm (c : Cfg) (s : Sys) : Prop := ∀ (j : Nat) (x : Inst), s.insts[j]? = some x → Gone x.task → Quiet c x

/-- Not cancelled before it has run, unless that does no harm. -/
def Fine (c : Cfg) (s : Sys) (e : Ev) : Prop :=
  c.impl = .py ∨ ∀ i x, (e = .cancel i ∨ (e = .stop ∧ s.cur = some i)) → s.insts[i]? = some x → x.task ≠ .sched false false

theorem cancel_quiet {c : Cfg} {now : Nat} {x : Inst} {l : List Drive} (ho : InstOk c now x l) (hf : c.impl = .py ∨ x.task ≠ .sched false false)
    (hg : Gone x.task → Quiet c x) : Quiet c (cancelTask c x) := by
  obtain ⟨-, -, o⟩ := ho
  cases ht : x.task with
  | done => have := hg (Or.inl ht); rw [quiet_cancel this]; exact this
  | pend =>
    right
    refine ⟨true, by simp [cancelTask, ht], fun _ => rfl, fun hp => by simp [cancelTask, ht, hp]⟩
  | sched e b =>
    cases e with
    | true => have := hg (Or.inr ⟨b, ht⟩); rw [quiet_cancel this]; exact this
    | false =>
      right
      refine ⟨b, by simp [cancelTask, ht], ?_, ?_⟩
      · intro hc
        rw [hc] at o
        obtain ⟨k, -, a, -⟩ := o
        cases b with
        | true => rfl
        | false => rcases hf with hf | hf
                   · rw [hc] at hf; cases hf
                   · exact absurd ht hf
      · intro hc
        rw [hc, ht] at o
        obtain ⟨k, -, a⟩ := o
        simp only [cancelTask, ht]
        cases b
        · exact a.2.1
        · exact a.2.1

theorem resume_alive {c : Cfg} (hv : Valid129 c) (x : Inst) (now : Nat) (hs : x.task.scheduled = true) (hg : ¬ Gone x.task) :
    (resume c now x).1.task = .pend ∧ (c.impl = .py → ∃ v, (resume c now x).2 = some v) := by
  obtain ⟨h1, h2, -⟩ := hv
  cases ht : x.task with
  | pend => rw [ht] at hs; cases hs
  | done => rw [ht] at hs; cases hs
  | sched e b =>
    cases e with
    | true => exact absurd (Or.inr ⟨b, ht⟩) hg
    | false =>
      unfold resume
      rw [ht]
      cases hc : c.impl with
      | gpi => simp
      | py =>
        simp only
        rw [if_neg (by omega)]
        simp

theorem put_get {s : Sys} {i : Nat} {x : Inst} {r : Inst × Option Bool} (hx : s.insts[i]? = some x) (j : Nat) :
    (put s i r).insts[j]? = if i = j then some r.1 else s.insts[j]? := by
  simp only [put]
  rw [List.getElem?_set]
  by_cases e : i = j
  · subst e; rw [if_pos rfl, if_pos (List.getElem?_eq_some_iff.1 hx).1, if_pos rfl]
  · rw [if_neg e, if_neg e]

theorem calm_step {c : Cfg} (hv : Valid129 c) {s s' : Sys} {e : Ev} (h : step c s e = some s') (hi : Inv c s) (hc : ClkCalm c s)
    (hf : Fine c s e) : ClkCalm c s' := by
  have hmod : ∀ i cu, (∀ x, s.insts[i]? = some x → c.impl = .py ∨ x.task ≠ .sched false false) →
      ClkCalm c { s with cur := cu, insts := s.insts.modify i (cancelTask c) } := by
    intro i cu hf j y hy hg
    simp only [List.getElem?_modify] at hy
    cases hx : s.insts[j]? with
    | none => rw [hx] at hy; cases hy
    | some x =>
      rw [hx] at hy
      by_cases e : i = j
      · subst e
        simp only [if_true, Option.map_eq_map, Option.map_some, Option.some.injEq] at hy
        subst hy
        exact cancel_quiet (hi.ok i x hx) (hf x hx) (hc i x hx)
      · simp only [if_neg e, Option.map_eq_map, Option.map_some, Option.some.injEq] at hy
        subst hy
        exact hc j x hx hg
  have hput : ∀ (i : Nat) (x : Inst) (r : Inst × Option Bool), s.insts[i]? = some x → (Gone r.1.task → Quiet c r.1) → ClkCalm c (put s i r) := by
    intro i x r hx hr j y hy hg
    rw [put_get hx] at hy
    split at hy
    · injection hy with hy; subst hy; exact hr hg
    · exact hc j y hy hg
  cases e with
  | start sh =>
    intro j y hy hg
    simp only [step] at h
    by_cases hcur : s.cur = none
    · obtain ⟨s1, x, h1, h2, h3, h4, h5, h6, h7, -⟩ := startOp_ok hv sh s hcur
      rw [h1] at h
      simp only [Option.some.injEq] at h
      subst h
      rw [h4, List.getElem?_append] at hy
      split at hy
      · exact hc j y hy hg
      · rw [List.getElem?_singleton] at hy
        split at hy
        · injection hy with hy
          subst hy
          rw [h7] at hg
          rcases hg with hg | ⟨b, hg⟩ <;> cases hg
        · cases hy
    · have : startOp c sh s = .error .runtimeError := by unfold startOp; rw [if_pos hcur]
      rw [this] at h
      simp only [Option.some.injEq] at h
      subst h
      exact hc j y hy hg
  | stop =>
    simp only [step, stopOp] at h
    cases hcur : s.cur with
    | none => rw [hcur] at h; simp only [Option.some.injEq] at h; subst h; exact hc
    | some i =>
      rw [hcur] at h; simp only [Option.some.injEq] at h; subst h
      refine hmod i none ?_
      intro x hx
      rcases hf with hf | hf
      · exact Or.inl hf
      · exact Or.inr (hf i x (Or.inr ⟨rfl, hcur⟩) hx)
  | cancel i =>
    simp only [step] at h
    split at h
    · simp only [Option.some.injEq] at h; subst h
      refine hmod i s.cur ?_
      intro x hx
      rcases hf with hf | hf
      · exact Or.inl hf
      · exact Or.inr (hf i x (Or.inl rfl) hx)
    · cases h
  | advance =>
    simp only [step] at h
    split at h
    · simp only [Option.some.injEq] at h; subst h; exact hc
    · cases h
  | resume i =>
    simp only [step] at h
    cases hx : s.insts[i]? with
    | none => rw [hx] at h; cases h
    | some x =>
      rw [hx] at h
      simp only at h
      split at h
      · rename_i hs
        simp only [Option.some.injEq] at h
        subst h
        refine hput i x _ hx ?_
        intro hg
        by_cases hgx : Gone x.task
        · exact Or.inl (quiet_resume (hc i x hx hgx) hs).2
        · rw [(resume_alive hv x s.now hs hgx).1] at hg
          rcases hg with hg | ⟨b, hg⟩ <;> cases hg
      · cases h
  | fire i =>
    simp only [step] at h
    cases hx : s.insts[i]? with
    | none => rw [hx] at h; cases h
    | some x =>
      rw [hx] at h
      simp only at h
      split at h
      · rename_i hs
        simp only [Option.some.injEq] at h
        subst h
        refine hput i x _ hx ?_
        intro hg
        unfold fire at hg
        cases hci : c.impl with
        | gpi =>
          rw [hci] at hg
          rcases hc i x hx hg with ⟨-, hd⟩ | ⟨b, ht, -⟩
          · rw [hd] at hs; cases hs.2
          · have := List.all_eq_true.1 hs.1 x (List.mem_of_getElem? hx)
            rw [ht] at this; simp [T.scheduled] at this
        | py =>
          rw [hci] at hg
          rcases hg with hg | ⟨b, hg⟩ <;> cases hg
      · cases h
  | free i =>
    simp only [step] at h
    cases hx : s.insts[i]? with
    | none => rw [hx] at h; cases h
    | some x =>
      rw [hx] at h
      simp only at h
      split at h
      · rename_i hs
        simp only [Option.some.injEq] at h
        subst h
        exact hput i x _ hx (fun _ => Or.inl ⟨hs, rfl⟩)
      · cases h

theorem calm_run {c : Cfg} (hv : Valid129 c) : ∀ (es : List Ev) {s s' : Sys}, Inv c s → ClkCalm c s → (c.impl = .py ∨ NotAtOnce c es s) →
    run c es s = some s' → ClkCalm c s'
  | [], s, s', _, hc, _, h => by simp only [run, Option.some.injEq] at h; subst h; exact hc
  | e :: es, s, s', hi, hc, hn, h => by
    simp only [run] at h
    split at h
    · rename_i s1 h1
      refine calm_run hv es (inv_step hi e h1) (calm_step hv h1 hi hc ?_) ?_ h
      · rcases hn with hn | hn
        · exact Or.inl hn
        · exact Or.inr hn.1
      · rcases hn with hn | hn
        · exact Or.inl hn
        · exact Or.inr (hn.2 s1 h1)
    · cases h

theorem silent_run {c : Cfg} : ∀ (es : List Ev) {s s' : Sys}, (∀ (j : Nat) (x : Inst), s.insts[j]? = some x → Quiet c x) → s.cur = none →
    (∀ sh, .start sh ∉ es) → run c es s = some s' → s'.drives = s.drives
  | [], s, s', _, _, _, h => by simp only [run, Option.some.injEq] at h; subst h; rfl
  | e :: es, s, s', hq, hc, hn, h => by
    simp only [run] at h
    split at h
    · rename_i s1 h1
      have he : ∀ sh, e ≠ .start sh := fun sh e' => hn sh (by simp [e'])
      have hd : s1.drives = s.drives := by
        rcases quiet_drives h1 he with hd | ⟨i, x, v, hx, hnq, -⟩
        · exact hd
        · exact absurd (hq i x hx) hnq
      have hlen : s1.insts.length = s.insts.length ∧ s1.cur = none := by
        cases e with
        | start sh => exact absurd rfl (he sh)
        | stop => simp only [step, stopOp, hc, Option.some.injEq] at h1; subst h1; exact ⟨rfl, hc⟩
        | cancel i =>
          simp only [step] at h1
          split at h1
          · simp only [Option.some.injEq] at h1; subst h1; simp [hc]
          · cases h1
        | advance =>
          simp only [step] at h1
          split at h1
          · simp only [Option.some.injEq] at h1; subst h1; exact ⟨rfl, hc⟩
          · cases h1
        | resume i =>
          simp only [step] at h1
          split at h1
          · split at h1
            · simp only [Option.some.injEq] at h1; subst h1; simp [put, hc]
            · cases h1
          · cases h1
        | fire i =>
          simp only [step] at h1
          split at h1
          · split at h1
            · simp only [Option.some.injEq] at h1; subst h1; simp [put, hc]
            · cases h1
          · cases h1
        | free i =>
          simp only [step] at h1
          split at h1
          · split at h1
            · simp only [Option.some.injEq] at h1; subst h1; simp [put, hc]
            · cases h1
          · cases h1
      rw [← hd]
      refine silent_run es ?_ hlen.2 (fun sh hm => hn sh (by simp [hm])) h
      intro j x hx
      have hj : j < s.insts.length := by rw [← hlen.1]; exact (List.getElem?_eq_some_iff.1 hx).1
      obtain ⟨x', hx', hq'⟩ := quiet_step h1 j _ (List.getElem?_eq_getElem hj) (hq j _ (List.getElem?_eq_getElem hj))
      rw [hx] at hx'
      injection hx' with hx'
      subst hx'
      exact hq'
    · cases h

/-- C129: from the call of `stop()` on the clock does not drive its signal until it is started again, with the Python
implementation always, with the GPI if no task of the clock was cancelled before it had run. -/
theorem C129_stop_partial (c : Cfg) (hv : Valid129 c) (es es' : List Ev) (s s' : Sys) (h : run c es init = some s)
    (hn : c.impl = .py ∨ NotAtOnce c es init) (hst : Started es false = false) (h' : run c es' s = some s') (hes : ∀ sh, .start sh ∉ es') :
    s'.drives = s.drives := by
  obtain ⟨a, -⟩ := run_shape hv es h
  have a : s.cur.isSome = Started es false := a
  have hcur : s.cur = none := by rw [hst] at a; simpa using a
  have hi := inv_run es (inv_init c) h
  have hc := calm_run hv es (inv_init c) (by intro j x hx; simp [init] at hx) hn h
  refine silent_run es' ?_ hcur hes h'
  intro j x hx
  exact hc j x hx (hi.gone j x hx (by rw [hcur]; simp))


/-- A history without calls at once. -/
example : Valid129 ⟨4, 2, .gpi⟩ ∧ NotAtOnce ⟨4, 2, .gpi⟩ [.start true, .resume 0, .stop] init ∧
    (run ⟨4, 2, .gpi⟩ [.start true, .resume 0, .stop, .resume 0, .advance, .advance] init).isSome = true := by
  refine ⟨by simp [Valid129], ?_, by decide⟩
  refine ⟨by simp, ?_⟩
  intro s1 h1
  have h1 : some _ = some s1 := h1
  injection h1 with h1
  subst h1
  refine ⟨by simp, ?_⟩
  intro s2 h2
  have h2 : some _ = some s2 := h2
  injection h2 with h2
  subst h2
  refine ⟨?_, fun _ _ => trivial⟩
  intro i x hi hx
  rcases hi with hi | ⟨-, hi⟩
  · cases hi
  · have : i = 0 := by
      have : some 0 = some i := hi
      injection this with this; exact this.symm
    subst this
    have : some _ = some x := hx
    injection this with this
    subst this
    simp [put, resume]

/-! ## The value while the clock runs -/

/-- C129, the full claim about the value: whenever everything at a time has been done and the clock has been started, its
signal has the value that the waveform, begun by the last `start()`, has at that time. -/
def C129_value_full : Prop :=
  ∀ (c : Cfg) (_ : Valid129 c) (es : List Ev) (s : Sys) (t0 : Nat) (sh : Bool), run c es init = some s → (∀ i, .cancel i ∉ es) →
    Settled129 s → Started es false = true → (Starts es 0 false).getLast? = some (t0, sh) →
    s.drives.head?.map (·.2.2) = some (wave c.periodSteps.toNat c.highSteps.toNat sh (s.now - t0))

/-- C129: false of the code, the GPI clock that is not stopped (`C129_stop_counterexample`) disturbs the next one. -/
theorem C129_value_counterexample : ¬ C129_value_full := by
  intro h
  have hv : Valid129 ⟨4, 2, .gpi⟩ := by simp [Valid129]
  have h := h ⟨4, 2, .gpi⟩ hv [.start true, .stop, .resume 0, .advance, .start true, .resume 1, .advance, .fire 0]
    ⟨2, some 1, [⟨.done, some 4, .start, false, true, 0⟩, ⟨.pend, some 3, .start, true, true, 1⟩],
      [(0, 2, false), (1, 1, true), (0, 0, true)]⟩ 1 true
    (by decide) (by simp) (by simp [Settled129, T.scheduled]) (by decide) (by decide)
  revert h; decide +kernel

/-- The run of the clock is the last one, is not cancelled, and drove last. -/
def Live (c : Cfg) (s : Sys) : Prop :=
  ∀ (i : Nat) (x : Inst), s.cur = some i → s.insts[i]? = some x →
    i + 1 = s.insts.length ∧ ¬ Gone x.task ∧ (c.impl = .gpi ∨ x.task ≠ .sched false false → s.drives.head?.map (·.1) = some i)

theorem live_step {c : Cfg} (hv : Valid129 c) {s s' : Sys} {e : Ev} (h : step c s e = some s') (hi : Inv c s) (hc : ClkCalm c s)
    (hl : Live c s) (he : ∀ i, e ≠ .cancel i) : Live c s' := by
  have hput : ∀ (i : Nat) (x : Inst) (r : Inst × Option Bool), s.insts[i]? = some x →
      (r.2.isSome = true → ¬ Quiet c x) → (¬ Gone x.task → ¬ Gone r.1.task) →
      (s.cur = some i → r.2 = none → (c.impl = .gpi ∨ r.1.task ≠ .sched false false) → (c.impl = .gpi ∨ x.task ≠ .sched false false)) →
      Live c (put s i r) := by
    intro i x r hx h1 h2 h3 k y hk hy
    have hk : s.cur = some k := hk
    rw [put_get hx] at hy
    have hdr : ∀ v, r.2 = some v → s.cur = some i := by
      intro v hr
      by_cases hci : s.cur = some i
      · exact hci
      · exact absurd (hc i x hx (hi.gone i x hx hci)) (h1 (by rw [hr]; rfl))
    by_cases e : i = k
    · subst e
      rw [if_pos rfl] at hy
      injection hy with hy
      subst hy
      obtain ⟨l1, l2, l3⟩ := hl i x hk hx
      refine ⟨by simpa [put] using l1, h2 l2, ?_⟩
      intro ha
      simp only [put]
      cases hr : r.2 with
      | none => exact l3 (h3 hk hr ha)
      | some v => simp
    · rw [if_neg e] at hy
      obtain ⟨l1, l2, l3⟩ := hl k y hk hy
      refine ⟨by simpa [put] using l1, l2, ?_⟩
      intro ha
      simp only [put]
      cases hr : r.2 with
      | none => exact l3 ha
      | some v =>
        have := hdr v hr
        rw [hk] at this
        injection this with this
        exact absurd this.symm e
  cases e with
  | start sh =>
    intro k y hk hy
    simp only [step] at h
    by_cases hcur : s.cur = none
    · obtain ⟨s1, x, h1, h2, h3, h4, h5, h6, h7, h8⟩ := startOp_ok hv sh s hcur
      rw [h1] at h
      simp only [Option.some.injEq] at h
      subst h
      rw [h2] at hk
      injection hk with hk
      subst hk
      rw [h4, List.getElem?_append_right (Nat.le_refl _)] at hy
      simp at hy
      subst hy
      refine ⟨by rw [h4]; simp, ?_, ?_⟩
      · rw [h7]; rintro (hg | ⟨b, hg⟩) <;> cases hg
      · intro ha
        rcases ha with ha | ha
        · rw [h8, if_pos ha]; rfl
        · exact absurd h7 ha
    · have : startOp c sh s = .error .runtimeError := by unfold startOp; rw [if_pos hcur]
      rw [this] at h
      simp only [Option.some.injEq] at h
      subst h
      exact hl k y hk hy
  | stop =>
    simp only [step, stopOp] at h
    cases hcur : s.cur with
    | none => rw [hcur] at h; simp only [Option.some.injEq] at h; subst h; exact hl
    | some i =>
      rw [hcur] at h; simp only [Option.some.injEq] at h; subst h
      intro k y hk; cases hk
  | cancel i => exact absurd rfl (he i)
  | advance =>
    simp only [step] at h
    split at h
    · simp only [Option.some.injEq] at h; subst h; exact hl
    · cases h
  | resume i =>
    simp only [step] at h
    cases hx : s.insts[i]? with
    | none => rw [hx] at h; cases h
    | some x =>
      rw [hx] at h
      simp only at h
      split at h
      · rename_i hs
        simp only [Option.some.injEq] at h
        subst h
        refine hput i x _ hx ?_ ?_ ?_
        · intro hr hq
          rw [(quiet_resume hq hs).1] at hr
          cases hr
        · intro hg
          rw [(resume_alive hv x s.now hs hg).1]
          rintro (hg | ⟨b, hg⟩) <;> cases hg
        · intro hci hr _
          cases him : c.impl with
          | gpi => exact Or.inl rfl
          | py =>
            obtain ⟨v, hv'⟩ := (resume_alive hv x s.now hs (hl i x hci hx).2.1).2 him
            rw [hv'] at hr; cases hr
      · cases h
  | fire i =>
    simp only [step] at h
    cases hx : s.insts[i]? with
    | none => rw [hx] at h; cases h
    | some x =>
      rw [hx] at h
      simp only at h
      split at h
      · rename_i hs
        simp only [Option.some.injEq] at h
        subst h
        have hsx := List.all_eq_true.1 hs.1 x (List.mem_of_getElem? hx)
        refine hput i x _ hx ?_ ?_ ?_
        · rintro - (⟨-, hd⟩ | ⟨b, ht, -⟩)
          · rw [hd] at hs; cases hs.2
          · rw [ht] at hsx; simp [T.scheduled] at hsx
        · intro hg
          unfold fire
          cases him : c.impl with
          | gpi => exact hg
          | py => rintro (hg | ⟨b, hg⟩) <;> cases hg
        · intro _ _ _
          right
          intro ht
          rw [ht] at hsx; simp [T.scheduled] at hsx
      · cases h
  | free i =>
    simp only [step] at h
    cases hx : s.insts[i]? with
    | none => rw [hx] at h; cases h
    | some x =>
      rw [hx] at h
      simp only at h
      split at h
      · rename_i hs
        simp only [Option.some.injEq] at h
        subst h
        exact hput i x _ hx (by simp) (fun h => h) (fun _ _ h => h)
      · cases h

theorem live_run {c : Cfg} (hv : Valid129 c) : ∀ (es : List Ev) {s s' : Sys}, Inv c s → ClkCalm c s → Live c s →
    (c.impl = .py ∨ NotAtOnce c es s) → (∀ i, .cancel i ∉ es) → run c es s = some s' → Live c s'
  | [], s, s', _, _, hl, _, _, h => by simp only [run, Option.some.injEq] at h; subst h; exact hl
  | e :: es, s, s', hi, hc, hl, hn, hne, h => by
    simp only [run] at h
    split at h
    · rename_i s1 h1
      have hf : Fine c s e := by
        rcases hn with hn | hn
        · exact Or.inl hn
        · exact Or.inr hn.1
      refine live_run hv es (inv_step hi e h1) (calm_step hv h1 hi hc hf) (live_step hv h1 hi hc hl ?_) ?_ ?_ h
      · intro i e'; exact hne i (by simp [e'])
      · rcases hn with hn | hn
        · exact Or.inl hn
        · exact Or.inr (hn.2 s1 h1)
      · intro i hm; exact hne i (by simp [hm])
    · cases h

theorem drivesOf_head {s : Sys} {i t : Nat} {v : Bool} (h : s.drives.head? = some (i, t, v)) : (drivesOf i s).getLast? = some (t, v) := by
  cases hd : s.drives with
  | nil => rw [hd] at h; cases h
  | cons a l =>
    rw [hd] at h
    injection h with h
    subst h
    unfold drivesOf
    rw [hd]
    simp [List.filterMap_append]

theorem range_last {f : Nat → Drive} {k : Nat} : ((List.range (k + 1)).map f).getLast? = some (f k) := by
  rw [List.range_succ, List.map_append]
  simp

/-- C129: the claim holds with the Python implementation, and with the GPI if no task of the clock was cancelled before it
had run. -/
theorem C129_value_partial (c : Cfg) (hv : Valid129 c) (es : List Ev) (s : Sys) (t0 : Nat) (sh : Bool) (h : run c es init = some s)
    (hne : ∀ i, .cancel i ∉ es) (hn : c.impl = .py ∨ NotAtOnce c es init) (hs : Settled129 s) (hst : Started es false = true)
    (hlast : (Starts es 0 false).getLast? = some (t0, sh)) :
    s.drives.head?.map (·.2.2) = some (wave c.periodSteps.toNat c.highSteps.toNat sh (s.now - t0)) := by
  obtain ⟨a, b⟩ := run_shape hv es h
  have a : s.cur.isSome = Started es false := a
  have b : s.insts.map (fun x => (x.t0, x.sh)) = Starts es 0 false := by simpa [init] using b
  have hi := inv_run es (inv_init c) h
  have hl := live_run hv es (inv_init c) (by intro j x hx; simp [init] at hx) (by intro j x hx; simp [init] at hx) hn hne h
  rw [hst] at a
  obtain ⟨i, hcur⟩ := Option.isSome_iff_exists.1 a
  have hlen := hi.cur i hcur
  have hx : s.insts[i]? = some s.insts[i] := List.getElem?_eq_getElem hlen
  generalize s.insts[i] = x at hx
  obtain ⟨l1, l2, l3⟩ := hl i x hcur hx
  obtain ⟨s1, s2⟩ := hs x (List.mem_of_getElem? hx)
  have ht : x.task = .pend := by
    cases ht : x.task with
    | pend => rfl
    | done => exact absurd (Or.inl ht) l2
    | sched e b => rw [ht] at s1; cases s1
  have hxt : x.t0 = t0 ∧ x.sh = sh := by
    rw [← b, List.getLast?_eq_getElem?, List.length_map, List.getElem?_map, ← l1, Nat.add_sub_cancel, hx] at hlast
    simpa using hlast
  obtain ⟨rfl, rfl⟩ := hxt
  have hhead := l3 (Or.inr (by rw [ht]; simp))
  cases hd : s.drives.head? with
  | none => rw [hd] at hhead; cases hhead
  | some d =>
    obtain ⟨i', t, v⟩ := d
    rw [hd] at hhead
    simp only [Option.map_some, Option.some.injEq] at hhead
    subst hhead
    have hgl := drivesOf_head hd
    obtain ⟨d, hdd, rfl, hw⟩ := valid_start hv x.sh
    simp only [Option.map_some, Option.some.injEq]
    refine (hw (s.now - x.t0) v).1 ?_
    have hmem : (t, v) ∈ drivesOf i' s := List.mem_of_getLast? hgl
    obtain ⟨o1, o2, o3⟩ := hi.ok i' x hx
    have ht' := o2 _ hmem
    simp only at ht'
    cases hc : c.impl with
    | gpi =>
      rw [hc] at o3
      obtain ⟨k, a1, a2, a3, a4⟩ := o3
      rw [a1, range_last] at hgl
      simp only [Option.some.injEq, Prod.mk.injEq] at hgl
      refine ⟨k, by omega, ?_, hgl.2⟩
      cases hdue : x.due with
      | none => exact absurd hdue (a3 (by rw [ht]; simp))
      | some u =>
        obtain ⟨b1, b2, -⟩ := a4 u hdue
        rw [hdue] at s2
        have : u ≠ s.now := fun e => s2 (by rw [e])
        simp only [wav, hc, gpiDrives]
        omega
    | py =>
      rw [hc, ht] at o3
      obtain ⟨k, a1, b1, b2, b3, -⟩ := o3
      obtain ⟨k, rfl⟩ : ∃ m, k = m + 1 := ⟨k - 1, by omega⟩
      rw [a1, range_last] at hgl
      simp only [Option.some.injEq, Prod.mk.injEq] at hgl
      refine ⟨k, by omega, ?_, hgl.2⟩
      rw [b2] at s2
      have : x.t0 + (pyAt x.sh (pyH c) (pyL c) (k + 1)).1 ≠ s.now := fun e => s2 (by rw [e])
      simp only [wav, hc, pyDrives]
      omega

/-- Started, stopped, started again at another phase. -/
example : ∃ s, run ⟨4, 1, .py⟩ [.start true, .resume 0, .advance, .fire 0, .resume 0, .stop, .resume 0, .advance, .start false, .resume 1,
      .advance, .advance] init = some s ∧ Settled129 s ∧ s.drives.length = 3 := by
  refine ⟨⟨4, some 1, [⟨.done, none, .high, true, true, 0⟩, ⟨.pend, some 5, .high, false, false, 2⟩], _⟩, rfl, ?_, rfl⟩
  simp [Settled129, T.scheduled]

end Verif
