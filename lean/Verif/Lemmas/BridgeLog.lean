import Verif.Lemmas.Bridge

namespace Verif.Bridge

open Sched (upd)
open BridgeSpec

/-! ### The log -/

theorem ofCall_append (r : Nat) (l l' : List Ev) : ofCall r (l ++ l') = ofCall r l ++ ofCall r l' := by
  unfold ofCall; exact List.filter_append ..

theorem ofThread_append (r : Nat) (l l' : List Ev) :
    ofThread r (l ++ l') = ofThread r l ++ ofThread r l' := by
  unfold ofThread; exact List.filter_append ..

theorem ofCall_call (r t q : Nat) : ofCall r [.call t q] = if q = r then [.call t q] else [] := by
  by_cases h : q = r <;> simp [ofCall, h]
theorem ofCall_start (r q : Nat) : ofCall r [.start q] = if q = r then [.start q] else [] := by
  by_cases h : q = r <;> simp [ofCall, h]
theorem ofCall_finish (r q : Nat) (o : Outcome) :
    ofCall r [.finish q o] = if q = r then [.finish q o] else [] := by
  by_cases h : q = r <;> simp [ofCall, h]
theorem ofCall_deliver (r t q : Nat) (o : Outcome) :
    ofCall r [.deliver t q o] = if q = r then [.deliver t q o] else [] := by
  by_cases h : q = r <;> simp [ofCall, h]
theorem ofCall_ret (r t : Nat) (o : Outcome) : ofCall r [.ret t o] = [] := rfl
theorem ofCall_result (r t : Nat) (o : Outcome) : ofCall r [.result t o] = [] := rfl
theorem ofThread_call (r t q : Nat) : ofThread r [.call t q] = [] := rfl
theorem ofThread_start (r q : Nat) : ofThread r [.start q] = [] := rfl
theorem ofThread_finish (r q : Nat) (o : Outcome) : ofThread r [.finish q o] = [] := rfl
theorem ofThread_deliver (r t q : Nat) (o : Outcome) : ofThread r [.deliver t q o] = [] := rfl
theorem ofThread_ret (r t : Nat) (o : Outcome) :
    ofThread r [.ret t o] = if t = r then [.ret t o] else [] := by
  by_cases h : t = r <;> simp [ofThread, h]
theorem ofThread_result (r t : Nat) (o : Outcome) :
    ofThread r [.result t o] = if t = r then [.result t o] else [] := by
  by_cases h : t = r <;> simp [ofThread, h]

/-- What the log says about calls. -/
structure LInv (s : St) : Prop where
  absent : ∀ r, (s.req r).stage = .absent → ofCall r s.log = []
  sched : ∀ r, (s.req r).stage = .scheduled → ofCall r s.log = [.call (s.req r).thread r]
  started : ∀ r, (s.req r).stage = .started → ofCall r s.log = [.call (s.req r).thread r, .start r]
  lost : ∀ r, (s.req r).stage = .over → (s.req r).outcome = none →
    ofCall r s.log = [.call (s.req r).thread r] ∨ ofCall r s.log = [.call (s.req r).thread r, .start r]
  over : ∀ r o, (s.req r).stage = .over → (s.req r).outcome = some o → In s (s.req r).thread r →
    ofCall r s.log = [.call (s.req r).thread r, .start r, .finish r o]
  left : ∀ r o, (s.req r).stage = .over → (s.req r).outcome = some o → ¬ In s (s.req r).thread r →
    ofCall r s.log = [.call (s.req r).thread r, .start r, .finish r o, .deliver (s.req r).thread r o]

/-- And about threads. -/
structure RInv (s : St) : Prop where
  running : ∀ t, (s.ext t).outcome = none → ofThread t s.log = []
  ret : ∀ t o, (s.ext t).outcome = some o → (s.ext t).awaiter ≠ .resumed → ofThread t s.log = [.ret t o]
  result : ∀ t o, (s.ext t).outcome = some o → (s.ext t).awaiter = .resumed →
    ofThread t s.log = [.ret t o, .result t o]

set_option maxHeartbeats 4000000 in
theorem LInv.step {s s' : St} {a : Act} (hc : CInv s) (ht : TInv s) (h : LInv s)
    (he : exec s a = some s') : LInv s' := by
  obtain ⟨h1, h2, h3, h4, h5, h6⟩ := h
  obtain ⟨c1, c2, c3, c4, c5, c6⟩ := hc
  have ht1 := ht.init
  clear ht
  cases a <;> simp only [exec, runItem, afterWait, setEvent, threadStart, outer] at he <;>
    (repeat' split at he) <;> (try cases he) <;>
    (constructor <;> simp only [In, St.setReq, St.setExt, St.addLog, upd_eq, ofCall_append, ofCall_call,
      ofCall_start, ofCall_finish, ofCall_deliver, ofCall_ret, ofCall_result, List.append_nil] at * <;>
      grind)

set_option maxHeartbeats 4000000 in
theorem RInv.step {s s' : St} {a : Act} (ht : TInv s) (h : RInv s)
    (he : exec s a = some s') : RInv s' := by
  obtain ⟨h1, h2, h3⟩ := h
  have t1 := ht.outc
  have t2 := ht.awd
  have t3 := ht.init
  clear ht
  cases a <;> simp only [exec, runItem, afterWait, setEvent, threadStart, outer] at he <;>
    (repeat' split at he) <;> (try cases he) <;>
    (constructor <;> try simp only [St.setReq, St.setExt, St.addLog, upd_eq, ofThread_append, ofThread_call,
      ofThread_start, ofThread_finish, ofThread_deliver, ofThread_ret, ofThread_result, List.append_nil] at *) <;>
    grind

theorem ReachBy.log {ok : St → Act → Prop} {s : St} (h : ReachBy ok s) : LInv s ∧ RInv s := by
  induction h with
  | init => refine ⟨⟨?_, ?_, ?_, ?_, ?_, ?_⟩, ⟨?_, ?_, ?_⟩⟩ <;> simp [ofCall, ofThread]
  | step h _ he ih =>
    have hi := ReachBy.inv h
    exact ⟨ih.1.step hi.1 hi.2 he, ih.2.step hi.2 he⟩

end Verif.Bridge
