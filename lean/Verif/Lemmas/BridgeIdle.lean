import Verif.Lemmas.BridgePolite
import Verif.Lemmas.BridgeLog

namespace Verif.Bridge

open Sched (upd)
open BridgeSpec

/-- `t` is at one of the first `k` places. -/
def before (l : List Nat) (k t : Nat) : Prop := t ∈ l.take k

theorem before_zero (l : List Nat) (t : Nat) : ¬ before l 0 t := by simp [before]

theorem before_succ (l : List Nat) (k t : Nat) :
    before l (k + 1) t ↔ before l k t ∨ l[k]? = some t := by
  unfold before
  rw [List.take_add_one, List.mem_append]
  cases l[k]? <;> simp [eq_comm]

theorem before_nodup {l : List Nat} (h : l.Nodup) {k t : Nat} (hk : l[k]? = some t) :
    ¬ before l k t := by
  unfold before
  intro hm
  obtain ⟨i, hi⟩ := List.mem_iff_getElem?.1 hm
  rw [List.getElem?_take] at hi
  split at hi
  · have := nodup_inj h hi hk; omega
  · cases hi

theorem before_all {l : List Nat} {k t : Nat} (hk : l[k]? = none) (ht : t ∈ l) : before l k t := by
  unfold before
  rwa [List.take_of_length_le (List.getElem?_eq_none_iff.1 hk)]

/-- When nobody cancels a task that awaits a bridged function. -/
structure NInv (s : St) : Prop where
  nc : ∀ t, (s.ext t).awaiter ≠ .cancelled
  out : s.main = .outside → s.queue = [] ∧ ∀ t ∈ s.pending, (s.ext t).state = .paused
  scan : ∀ k, s.main = .scan k ∨ s.main = .blocked k → s.queue ≠ [] ∨
    ∀ t, before s.pending k t → (s.ext t).state = .paused

set_option maxHeartbeats 4000000 in
theorem NInv.step {s s' : St} {a : Act} (ht : TInv s) (hP : PInv s) (h : NInv s)
    (hp : polite s a) (hn : noCancel a) (he : exec s a = some s') : NInv s' := by
  obtain ⟨n1, n2, n3⟩ := h
  obtain ⟨h1, h2, h3, h4, h5, h6, h7, h8, h9⟩ := hP
  obtain ⟨t1, t2, t3, t4, t5, t6, t7, t8, n4, t9⟩ := ht
  have b1 : ∀ k u, before s.pending (k + 1) u ↔ before s.pending k u ∨ s.pending[k]? = some u :=
    before_succ _
  have b2 : ∀ k t, s.pending[k]? = some t → ¬ before s.pending k t := fun k t => before_nodup t1
  have b3 : ∀ k t, s.pending[k]? = none → t ∈ s.pending → before s.pending k t := fun k t =>
    before_all
  have b4 : ∀ (l : List Nat) t, ¬ before l 0 t := before_zero
  have b5 : ∀ (i t : Nat), s.pending[i]? = some t → t ∈ s.pending := fun i t h =>
    List.mem_iff_getElem?.2 ⟨i, h⟩
  have q1 : ∀ (l : List Item) i, l ++ [i] ≠ [] := by simp
  have a1 : ∀ t, t ∈ s.pending → (s.ext t).awaiter = .waiting := by
    intro t h
    have := n1 t; have := t6 t; have := t8 t; have := t2 t h
    cases hA : (s.ext t).awaiter <;> simp_all
  have a2 : ∀ k t, s.main = .blocked k → s.pending[k]? = some t → (s.ext t).state ≠ .running →
      (s.ext t).state ≠ .exited → (s.ext t).state = .paused := by
    intro k t hm hk e1 e2
    have := h5 t (by rw [hm, cur_blocked, hk]); have := t2 t (b5 k t hk); have := t4 t
    cases hA : (s.ext t).state <;> simp_all
  clear h4 h7 t9
  simp only [polite, waitsFor_iff] at hp
  cases a <;> simp only [exec, runItem, afterWait, setEvent, threadStart, outer, thread,
      Option.some.injEq, forall_eq', reduceCtorEq, false_implies, implies_true] at he hp <;>
    (repeat' split at he) <;> (try cases he) <;>
    (constructor <;> try simp only [In, St.setReq, St.setExt, St.addLog, upd_eq] at *) <;>
    grind [cur, noCancel, List.Nodup.mem_erase_iff]

theorem ReachBy.polite {ok : St → Act → Prop} (hok : ∀ s a, ok s a → polite s a) {s : St}
    (h : ReachBy ok s) : PInv s := by
  induction h with
  | init => constructor <;> simp [cur]
  | step h ho he ih => exact ih.step (ReachBy.inv h).1 (ReachBy.inv h).2 (hok _ _ ho) he

theorem ReachBy.idle {s : St} (h : ReachBy (fun s a => BridgeSpec.polite s a ∧ noCancel a) s) :
    NInv s := by
  induction h with
  | init => constructor <;> simp
  | step h ho he ih =>
    exact ih.step (ReachBy.inv h).2 (ReachBy.polite (fun _ _ x => x.1) h) ho.1 ho.2 he

/-- Every call that is over has its result. -/
def VInv (s : St) : Prop :=
  ∀ r, (s.req r).stage = .over → (s.req r).event = true ∨ s.main = .resuming r ∨ s.main = .setting r

set_option maxHeartbeats 1000000 in
theorem VInv.step {s s' : St} {a : Act} (hc : CInv s) (h : VInv s) (hn : noLoss a)
    (he : exec s a = some s') : VInv s' := by
  obtain ⟨c1, c2, c3, c4, c5, c6⟩ := hc
  unfold VInv at h ⊢
  cases a <;> simp only [exec, runItem, afterWait, setEvent, threadStart, outer] at he <;>
    (repeat' split at he) <;> (try cases he) <;>
    simp only [In, St.setReq, St.setExt, St.addLog, upd_eq] at * <;> grind [noLoss]

theorem ReachBy.kept {ok : St → Act → Prop} (hok : ∀ s a, ok s a → noLoss a) {s : St}
    (h : ReachBy ok s) : VInv s := by
  induction h with
  | init => simp [VInv]
  | step h ho he ih => exact ih.step (ReachBy.inv h).1 (hok _ _ ho) he

end Verif.Bridge
