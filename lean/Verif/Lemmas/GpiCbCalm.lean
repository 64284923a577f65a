import Verif.Lemmas.GpiCb

namespace Verif.GpiCb

open Sched (upd)
open GpiCbSpec

theorem erase_once {l : List Nat} {h : Nat} (hc : l.count h ≤ 1) : h ∉ l.erase h := by
  intro hm
  have := List.count_pos_iff.2 hm
  rw [List.count_erase_self] at this
  omega

/-! One callback that is treated calmly. -/
structure CInv (h : Nat) (s : St) : Prop where
  stack : ∀ q, (h, q) ∈ s.stack → (s.obj h).alive = true ∧ (s.obj h).data = true ∧
    (s.obj h).removed = false ∧ (s.obj h).held = false
  nodup : (s.stack.map Prod.fst).count h ≤ 1
  queue : h ∈ s.queue → (s.obj h).alive = true
  qnodup : s.queue.count h ≤ 1
  apart : (h, false) ∈ s.stack → h ∉ s.queue
  reg : (s.obj h).registered = true → (s.obj h).alive = true
  ran : .run h ∈ s.log → h ∈ s.stack.map Prod.fst ∨ (s.obj h).alive = false ∨ (s.obj h).removed = true
  safe : .dangling h ∉ s.log
  once : s.log.count (.run h) ≤ 1

set_option maxHeartbeats 1000000 in
theorem CInv.step {c : Cfg} {s s' : St} {a : Act} {h : Nat} (hC : CInv h s) (hA : AInv s) (hQ : QInv c s)
    (hO : OInv c s) (hc : calm c h s a) (he : exec c s a = some s') : CInv h s' := by
  obtain ⟨h1, h2, h3, h4, h5, h6, h7, h8, h9⟩ := hC
  obtain ⟨a1, a2, a3, a4, a5, a6, a7⟩ := hA
  have q1 := hQ.front
  have q2 := hQ.queued
  have q3 := hQ.direct
  have o1 := hO.quiet
  have o2 := hO.ranFired
  have o3 := hO.queueFired
  replace a1 := a1 h
  replace a2 := a2 h
  replace a4 := a4 h
  replace a5 := a5 h
  replace a6 := a6 h
  replace a7 := a7 h
  replace q1 := q1 h
  replace o1 := o1 h
  replace o2 := o2 h
  replace o3 := o3 h
  clear hQ hO
  replace he := exec_step he
  have hm : ∀ h' q rest, s.stack = (h', q) :: rest → (h', q) ∈ s.stack := by grind
  cases he <;> (try rename_i hx; cases hx) <;> simp only [calm] at hc <;>
    (constructor <;> try simp only [upd_same, upd_upd] at *) <;>
    (try simp only [upd_eq, List.mem_append, List.mem_singleton, reduceCtorEq, or_false, Ev.run.injEq, Ev.fire.injEq, Ev.remove.injEq] at *) <;>
    grind [List.mem_of_mem_tail, List.mem_of_mem_erase, Gone, pop, erase_once]

/-! Which callbacks are over, and why. -/
structure EInv (c : Cfg) (s : St) : Prop where
  dead : ∀ h, h < s.n → (s.obj h).alive = false → .run h ∈ s.log ∨ .remove h ∈ s.log

set_option maxHeartbeats 1000000 in
theorem EInv.step {c : Cfg} {s s' : St} {a : Act} (h : EInv c s) (hA : AInv s) (he : exec c s a = some s') :
    EInv c s' := by
  have h1 := h.dead
  clear h
  have a1 := hA.fresh
  have a5 := hA.removed
  have a7 := hA.stack
  clear hA
  replace he := exec_step he
  cases he <;> (try rename_i hx; cases hx) <;>
    (constructor <;> try simp only [upd_same, upd_upd] at *) <;>
    (try simp only [upd_eq, List.mem_append, List.mem_singleton, reduceCtorEq, or_false, Ev.run.injEq, Ev.fire.injEq, Ev.remove.injEq] at *) <;>
    grind [Gone, pop]

theorem ReachBy.inv {c : Cfg} {ok : St → Act → Prop} {s : St} (h : ReachBy c ok s) :
    AInv s ∧ QInv c s ∧ OInv c s ∧ EInv c s := by
  induction h with
  | init => exact ⟨by constructor <;> simp, by constructor <;> simp, by constructor <;> simp,
      by constructor <;> simp⟩
  | step _ _ he ih =>
    exact ⟨ih.1.step he, ih.2.1.step ih.1 he, ih.2.2.1.step ih.1 ih.2.1 he, ih.2.2.2.step ih.1 he⟩

theorem ReachBy.calm {c : Cfg} {s : St} {h : Nat} (hr : ReachBy c (calm c h) s) : CInv h s := by
  induction hr with
  | init => constructor <;> simp
  | step hr hc he ih =>
    obtain ⟨a, q, o, -⟩ := ReachBy.inv hr
    exact ih.step a q o hc he

end Verif.GpiCb
