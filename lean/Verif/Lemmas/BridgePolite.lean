import Verif.Lemmas.Bridge

/-!
Schedules in which bridge threads run only while the event-loop thread waits for them.
-/

namespace Verif.Bridge

open Sched (upd)
open BridgeSpec

/-- The thread the event-loop thread is blocked on. -/
def cur (m : Main) (l : List Nat) : Option Nat :=
  match m with
  | .blocked k => l[k]?
  | _ => none

theorem cur_blocked (k : Nat) (l : List Nat) : cur (.blocked k) l = l[k]? := rfl

theorem cur_of {m : Main} (h : ∀ k, m ≠ .blocked k) (l : List Nat) : cur m l = none := by
  cases m <;> simp_all [cur]

theorem waitsFor_iff (s : St) (t : Nat) : WaitsFor s t ↔ cur s.main s.pending = some t := by
  constructor
  · rintro ⟨k, h1, h2⟩
    rw [h1]; exact h2
  · intro h
    cases hm : s.main <;> rw [hm] at h <;> simp [cur] at h
    exact ⟨_, hm, h⟩

structure PInv (s : St) : Prop where
  user : ∀ t, (s.ext t).pos = .user → cur s.main s.pending = some t
  queued : ∀ t r, (s.ext t).pos = .queued r → cur s.main s.pending = some t
  returned : ∀ t, (s.ext t).pos = .returned → cur s.main s.pending = some t
  wait : ∀ t r, (s.ext t).pos = .waiting r →
    ((s.ext t).state = .paused ∧ (s.req r).event = false ∧ s.main ≠ .setting r) ∨
    ((s.ext t).state = .running ∧ ((s.req r).event = true ∨ s.main = .setting r))
  start : ∀ t, cur s.main s.pending = some t → (s.ext t).pos ≠ .fresh
  run1 : ∀ t, (s.ext t).pos = .user → (s.ext t).state = .running
  run2 : ∀ t r, (s.ext t).pos = .queued r → (s.ext t).state = .running ∧ (s.req r).event = false
  run3 : ∀ t, (s.ext t).pos = .returned → (s.ext t).state = .running
  bound : ∀ k, s.main = .blocked k → ∃ t, s.pending[k]? = some t

theorem nodup_inj {l : List Nat} (h : l.Nodup) {i j t : Nat} (hi : l[i]? = some t)
    (hj : l[j]? = some t) : i = j := by
  obtain ⟨a1, a2⟩ := List.getElem?_eq_some_iff.1 hi
  obtain ⟨b1, b2⟩ := List.getElem?_eq_some_iff.1 hj
  exact (List.getElem_inj h).1 (by rw [a2, b2])

set_option maxHeartbeats 4000000 in
theorem PInv.step {s s' : St} {a : Act} (hc : CInv s) (ht : TInv s) (h : PInv s)
    (hp : polite s a) (he : exec s a = some s') : PInv s' := by
  obtain ⟨h1, h2, h3, h4, h5, h6, h7, h8, h9⟩ := h
  obtain ⟨c1, c2, c3, c4, c5, c6⟩ := hc
  obtain ⟨t1, t2, t3, t4, t5, t6, t7, t8, t8', t9⟩ := ht
  have hj := fun i j t => @nodup_inj _ t1 i j t
  clear t6 t7 t8 t8' t9 c3
  simp only [polite, waitsFor_iff] at hp
  cases a <;> simp only [exec, runItem, afterWait, setEvent, threadStart, outer, thread,
      Option.some.injEq, forall_eq', reduceCtorEq, false_implies, implies_true] at he hp <;>
    (repeat' split at he) <;> (try cases he) <;>
    (constructor <;> try simp only [In, St.setReq, St.setExt, St.addLog, upd_eq] at *) <;>
    grind [cur]

end Verif.Bridge
