import Verif.Spec.Bridge

namespace Verif.Bridge

open Sched (upd)
open BridgeSpec

theorem upd_eq {β : Type} (f : Nat → β) (a x : Nat) (b : β) : upd f a b x = if x = a then b else f x := by
  simp [upd]

/-- The thread is inside call `r`. -/
def In (s : St) (t r : Nat) : Prop := (s.ext t).pos = .queued r ∨ (s.ext t).pos = .waiting r

/-- Calls. -/
structure CInv (s : St) : Prop where
  own : ∀ t r, In s t r → (s.req r).thread = t ∧ (s.req r).stage ≠ .absent
  absent : ∀ r, (s.req r).stage = .absent → s.req r = {}
  open_ : ∀ r, (s.req r).stage = .scheduled ∨ (s.req r).stage = .started →
    In s (s.req r).thread r ∧ (s.req r).outcome = none ∧ (s.req r).event = false
  main : ∀ r, s.main = .resuming r ∨ s.main = .setting r → (s.req r).stage = .over ∧
    (∃ o, (s.req r).outcome = some o) ∧ (s.req r).event = false ∧ In s (s.req r).thread r
  event : ∀ r, (s.req r).event = true → (s.req r).stage = .over ∧ ∃ o, (s.req r).outcome = some o
  left : ∀ r, (s.req r).stage = .over → ¬ In s (s.req r).thread r → (s.req r).event = true

/-- Threads. -/
structure TInv (s : St) : Prop where
  nd : s.pending.Nodup
  here : ∀ t ∈ s.pending, (s.ext t).pos ≠ .absent
  listed : ∀ t, (s.ext t).pos ≠ .absent → (s.ext t).pos ≠ .dead → t ∈ s.pending
  init : ∀ t, (s.ext t).state = .init ↔ ((s.ext t).pos = .absent ∨ (s.ext t).pos = .fresh)
  exited : ∀ t, (s.ext t).state = .exited ↔ (s.ext t).pos = .dead
  aw : ∀ t, (s.ext t).awaiter = .none ↔ (s.ext t).pos = .absent
  awq : ∀ t, (s.ext t).awaiter = .scheduled → .awaiter t ∈ s.queue
  awd : ∀ t, (s.ext t).awaiter = .scheduled ∨ (s.ext t).awaiter = .resumed →
    (s.ext t).pos = .dead ∧ t ∉ s.pending
  deadw : ∀ t, (s.ext t).pos = .dead → (s.ext t).awaiter = .waiting → t ∈ s.pending
  outc : ∀ t, (s.ext t).outcome = none ↔ ((s.ext t).pos ≠ .returned ∧ (s.ext t).pos ≠ .dead)

theorem inv_init : CInv {} ∧ TInv {} := by
  refine ⟨⟨?_, ?_, ?_, ?_, ?_, ?_⟩, ⟨?_, ?_, ?_, ?_, ?_, ?_, ?_, ?_, ?_, ?_⟩⟩ <;> simp [In]

set_option maxHeartbeats 1000000 in
theorem CInv.step {s s' : St} {a : Act} (h : CInv s) (ht : TInv s) (he : exec s a = some s') :
    CInv s' := by
  obtain ⟨h1, h2, h3, h4, h5, h6⟩ := h
  have ht1 := ht.init
  clear ht
  cases a <;> simp only [exec, runItem, afterWait, setEvent, threadStart, outer] at he <;>
    (repeat' split at he) <;> (try cases he) <;>
    (constructor <;> simp only [In, St.setReq, St.setExt, St.addLog, upd_eq] at * <;> grind)

set_option maxHeartbeats 2000000 in
theorem TInv.step {s s' : St} {a : Act} (hc : CInv s) (h : TInv s) (he : exec s a = some s') :
    TInv s' := by
  obtain ⟨h1, h2, h3, h4, h5, h6, h7, h8, h8', h9⟩ := h
  have hm := hc.main
  have h10 : ∀ t, (s.ext t).awaiter = .scheduled → ∃ o, (s.ext t).outcome = some o := by
    intro t ht
    cases ho : (s.ext t).outcome with
    | none => exact absurd (h8 t (Or.inl ht)).1 ((h9 t).1 ho).2
    | some o => exact ⟨o, rfl⟩
  clear hc
  cases a <;> simp only [exec, runItem, afterWait, setEvent, threadStart, outer] at he <;>
    (repeat' split at he) <;> (try cases he) <;>
    (constructor <;> simp only [In, St.setReq, St.setExt, St.addLog, upd_eq] at * <;>
      grind [List.Nodup.mem_erase_iff, List.Nodup.erase, List.nodup_append])


theorem ReachBy.inv {ok : St → Act → Prop} {s : St} (h : ReachBy ok s) : CInv s ∧ TInv s := by
  induction h with
  | init => exact inv_init
  | step _ _ he ih => exact ⟨ih.1.step ih.2 he, ih.2.step ih.1 he⟩

theorem reach_by {s : St} (h : Reach s) : ReachBy (fun _ _ => True) s := by
  obtain ⟨as, h⟩ := h
  have key : ∀ (as : List Act) (s s' : St), ReachBy (fun _ _ => True) s → run s as = some s' →
      ReachBy (fun _ _ => True) s' := by
    intro as
    induction as with
    | nil => intro s s' h he; cases he; exact h
    | cons a as ih =>
      intro s s' h he
      rw [run] at he
      split at he
      · rename_i s1 hx; exact ih s1 s' (h.step trivial hx) he
      · cases he
  exact key as _ _ .init h

theorem Reach.inv {s : St} (h : Reach s) : CInv s ∧ TInv s := ReachBy.inv (reach_by h)

end Verif.Bridge
