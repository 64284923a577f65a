import Verif.Spec.GpiCb

namespace Verif.GpiCb

open Sched (upd)
open GpiCbSpec

theorem upd_eq {β : Type} (f : Nat → β) (a x : Nat) (b : β) : upd f a b x = if x = a then b else f x := by
  simp [upd]

theorem upd_same {β : Type} (f : Nat → β) (a : Nat) (b : β) : upd f a b a = b := by simp [upd]

theorem upd_upd {β : Type} (f : Nat → β) (a : Nat) (b b' : β) : upd (upd f a b) a b' = upd f a b' := by
  funext x; simp only [upd_eq]; split <;> rfl

theorem upd_self {β : Type} (f : Nat → β) (a : Nat) : upd f a (f a) = f := by
  funext x; simp only [upd_eq]; split <;> simp_all

/-- `o` is done with and has become `o'`. -/
structure Gone (c : Cfg) (o o' : Obj) : Prop where
  kind : o'.kind = o.kind
  data : o'.data = o.data
  held : o'.held = o.held
  life : o'.alive = false ∧ o'.removed = o.removed ∨ o'.alive = o.alive ∧ o'.removed = true
  reg : o'.registered = true → o.registered = true
  dead : o.alive = true → o'.alive = false →
    o'.registered = false ∨ o.kind = .oneShot ∧ c.recurring = false

theorem vpiRemove_gone (c : Cfg) (s : St) (h : Nat) (ok : Bool) :
    ∃ o', Gone c (s.obj h) o' ∧ ((s.obj h).alive = true → o'.alive = false → o'.registered = false) ∧
      vpiRemove s h ok = s.set h o' := by
  unfold vpiRemove
  split
  · exact ⟨_, by constructor <;> grind, by grind, rfl⟩
  · exact ⟨_, by constructor <;> grind, by grind, rfl⟩

theorem afterOneShot_gone (c : Cfg) (s : St) (h : Nat) (ok : Bool) (hk : (s.obj h).kind = .oneShot) :
    ∃ o', Gone c (s.obj h) o' ∧ afterOneShot c s h ok = s.set h o' := by
  unfold afterOneShot
  split
  · obtain ⟨o', h1, _, h2⟩ := vpiRemove_gone c s h ok
    exact ⟨o', h1, h2⟩
  · exact ⟨_, by constructor <;> grind, rfl⟩

def pop (q : Bool) (l : List Nat) : List Nat := if q then l.tail else l

/-- The outcomes of `runCb`. -/
inductive RunCase (c : Cfg) (s : St) (h : Nat) (q pass : Bool) : St → Prop
  | bad (hb : (s.obj h).alive = false) :
    RunCase c s h q pass { s with queue := pop q s.queue, log := s.log ++ [.dangling h] }
  | skip (ha : (s.obj h).alive = true) (hk : (s.obj h).kind = .value)
      (hp : (s.obj h).removed = true ∨ pass = false) :
    RunCase c s h q pass { s with queue := pop q s.queue }
  | shot (o' : Obj) (ha : (s.obj h).alive = true) (hk : (s.obj h).kind = .oneShot)
      (hp : (s.obj h).removed = true) (hg : Gone c (s.obj h) o') :
    RunCase c s h q pass { s with queue := pop q s.queue, obj := upd s.obj h o' }
  | call (ha : (s.obj h).alive = true) (hr : (s.obj h).removed = false) (hd : (s.obj h).data = true)
      (hp : (s.obj h).kind = .value → pass = true) :
    RunCase c s h q pass { s with
        stack := (h, q) :: s.stack, log := s.log ++ [.run h]
        obj := upd s.obj h { s.obj h with held := false } }
  | noData (ha : (s.obj h).alive = true) (hr : (s.obj h).removed = false) (hd : (s.obj h).data = false) :
    RunCase c s h q pass { s with log := s.log ++ [.dangling h] }

theorem popIf_eq (s : St) (q : Bool) : popIf s q = { s with queue := pop q s.queue } := by
  unfold popIf pop; split <;> rfl

theorem runCb_cases (c : Cfg) (s : St) (h : Nat) (q pass ok : Bool) :
    RunCase c s h q pass (runCb c s h q pass ok) := by
  unfold runCb
  simp only [popIf_eq]
  split
  · exact .bad (by simp_all)
  · rename_i ha
    have ha : (s.obj h).alive = true := by simpa using ha
    split
    · rename_i hk
      split
      · rename_i hp
        exact .skip ha hk (by simpa using hp)
      · rename_i hp
        unfold callUp
        split
        · exact .call ha (by grind) (by assumption) (by grind)
        · exact .noData ha (by grind) (by grind)
    · rename_i hk
      split
      · rename_i hp
        obtain ⟨o', hg, e⟩ := afterOneShot_gone c s h ok hk
        rw [e]
        exact .shot o' ha hk hp hg
      · unfold callUp
        split
        · exact .call ha (by grind) (by assumption) (by grind)
        · exact .noData ha (by grind) (by grind)

/-- The outcomes of a step. -/
inductive Step (c : Cfg) (s : St) : Act → St → Prop
  | register (k : Kind) : Step c s (.register k)
      { s with
        n := s.n + 1, log := s.log ++ [.register s.n]
        obj := upd s.obj s.n { kind := k, alive := true, data := true, registered := true, held := true } }
  | removeBad (h : Nat) (ok : Bool) (hh : (s.obj h).held = true) (hb : (s.obj h).alive = false) :
    Step c s (.remove h ok) { s with
        log := s.log ++ [.dangling h]
        obj := upd s.obj h { s.obj h with held := false } }
  | remove (h : Nat) (ok : Bool) (o' : Obj) (hh : (s.obj h).held = true) (ha : (s.obj h).alive = true)
      (hg : Gone c { s.obj h with held := false, data := false } o')
      (hd : o'.alive = false → o'.registered = false) (hq : ¬ (c.queued = true ∧ h ∈ s.queue)) :
    Step c s (.remove h ok) { s with log := s.log ++ [.remove h], obj := upd s.obj h o' }
  | removeQ (h : Nat) (ok : Bool) (o' : Obj) (hh : (s.obj h).held = true) (ha : (s.obj h).alive = true)
      (hc : c.queued = true) (hq : h ∈ s.queue)
      (hg : Gone c { s.obj h with held := false, data := false } o' ∨
        c.recurring = false ∧ o' = { s.obj h with held := false, data := false, alive := false }) :
    Step c s (.remove h ok) { s with
        log := s.log ++ [.remove h], obj := upd s.obj h o'
        queue := s.queue.erase h }
  | queue (h : Nat) (pass ok : Bool) (hr : (s.obj h).registered = true) (hc : c.queued = true)
      (hx : s.reacting = true) :
    Step c s (.fire h pass ok) { s with
      log := s.log ++ [.fire h pass], queue := s.queue ++ [h]
      obj := upd s.obj h { s.obj h with registered := c.recurring || (s.obj h).kind == .value } }
  | fire (h : Nat) (pass ok : Bool) (s' : St) (hr : (s.obj h).registered = true)
      (hc : c.queued = true → s.reacting = false)
      (hs : RunCase c { s with
          log := s.log ++ [.fire h pass], reacting := c.queued || s.reacting
          obj := upd s.obj h { s.obj h with registered := c.recurring || (s.obj h).kind == .value } } h false pass
        s') :
    Step c s (.fire h pass ok) s'
  | retBad (h : Nat) (q ok : Bool) (rest : List (Nat × Bool)) (hs : s.stack = (h, q) :: rest) (l : List Ev)
      (hb : (s.obj h).alive = false ∨ (s.obj h).data = false) (o' : Obj) (s' : St)
      (hl : l = s.log ++ [.dangling h] ∨ l = s.log ++ [.dangling h, .dangling h])
      (hl' : ∀ x, .dangling x ∈ l → .dangling x ∈ s.log ∨ x = h)
      (ho : o' = { s.obj h with data := false } ∨ Gone c { s.obj h with data := false } o')
      (he : s' = { s with stack := rest, queue := pop q s.queue, log := l, obj := upd s.obj h o' }) :
    Step c s (.ret ok) s'
  | ret (h : Nat) (q ok : Bool) (rest : List (Nat × Bool)) (hs : s.stack = (h, q) :: rest) (o' : Obj)
      (ha : (s.obj h).alive = true) (hd : (s.obj h).data = true)
      (hg : Gone c { s.obj h with data := false } o') :
    Step c s (.ret ok) { s with stack := rest, queue := pop q s.queue, obj := upd s.obj h o' }
  | idle (pass ok : Bool) (hc : c.queued = true) (hr : s.reacting = true) (hs : s.stack = [])
      (hq : s.queue = []) :
    Step c s (.drain pass ok) { s with reacting := false }
  | drain (pass ok : Bool) (hc : c.queued = true) (hr : s.reacting = true) (hs : s.stack = [])
      (h : Nat) (rest : List Nat) (hq : s.queue = h :: rest) (s' : St) (hx : RunCase c s h true pass s') :
    Step c s (.drain pass ok) s'

theorem exec_step {c : Cfg} {s s' : St} {a : Act} (he : exec c s a = some s') : Step c s a s' := by
  cases a with
  | register k => simp only [exec] at he; cases he; exact .register k
  | remove h ok =>
    simp only [exec] at he
    split at he
    rotate_left
    · cases he
    rename_i hh
    split at he
    · cases he; exact .removeBad h ok hh (by simp_all)
    · rename_i ha
      have ha : (s.obj h).alive = true := by simpa using ha
      split at he
      · rename_i hq
        split at he
        · cases he
          simp only [St.set, St.ev, upd_same, upd_upd]
          exact .removeQ h ok _ hh ha hq.1 hq.2 (.inr ⟨by simp_all, rfl⟩)
        · cases he
          obtain ⟨o', hg, hd', e⟩ := vpiRemove_gone c { (s.set h { s.obj h with held := false, data := false }).ev (.remove h) with queue := s.queue.erase h } h ok
          simp only [St.set, St.ev, upd_same, upd_upd] at e hg ⊢
          rw [e]
          exact .removeQ h ok _ hh ha hq.1 hq.2 (.inl hg)
      · rename_i hq
        cases he
        obtain ⟨o', hg, hd', e⟩ := vpiRemove_gone c ((s.set h { s.obj h with held := false, data := false }).ev (.remove h)) h ok
        simp only [St.set, St.ev, upd_same, upd_upd] at e hg ⊢
        rw [e]
        exact .remove h ok _ hh ha hg (hd' (by simpa [St.set, St.ev, upd_same] using ha)) hq
  | fire h pass ok =>
    simp only [exec] at he
    split at he
    rotate_left
    · cases he
    rename_i hr
    split at he
    · rename_i hc
      have hc : c.queued = false := by simpa using hc
      cases he
      refine .fire h pass ok _ hr (by simp [hc]) ?_
      rw [hc, Bool.false_or]
      exact runCb_cases ..
    · rename_i hc
      have hc : c.queued = true := by simpa using hc
      split at he
      · rename_i hx
        cases he
        exact .queue h pass ok hr hc hx
      · rename_i hx
        cases he
        refine .fire h pass ok _ hr (fun _ => by simpa [St.set, St.ev] using hx) ?_
        rw [hc, Bool.true_or]
        exact runCb_cases ..
  | ret ok =>
    simp only [exec] at he
    split at he
    · cases he
    · rename_i h q rest hs
      cases he
      rw [popIf_eq]
      unfold endRun
      by_cases hd : (s.obj h).data = true
      · simp only [hd, ↓reduceIte]
        split
        · rename_i ha
          refine .retBad h q ok rest hs _ (.inl (by simpa [St.set, upd_same] using ha)) _ _ (.inl rfl) (by simp [St.ev, St.set]) (.inl rfl) ?_
          rfl
        · rename_i ha
          have ha : (s.obj h).alive = true := by simpa [St.set, upd_same] using ha
          have : ∀ o', Gone c { s.obj h with data := false } o' →
            Step c s (.ret ok) { s with stack := rest, queue := pop q s.queue, obj := upd s.obj h o' } :=
            fun o' hg => .ret h q ok rest hs o' ha hd hg
          split
          · obtain ⟨o', hg, hd', e⟩ := vpiRemove_gone c (St.set { s with stack := rest } h { s.obj h with data := false }) h ok
            rw [e]
            simp only [St.set, upd_same, upd_upd] at e hg ⊢
            exact this _ hg
          · rename_i hk
            obtain ⟨o', hg, e⟩ := afterOneShot_gone c (St.set { s with stack := rest } h { s.obj h with data := false }) h ok hk
            rw [e]
            simp only [St.set, upd_same, upd_upd] at e hg ⊢
            exact this _ hg
      · have hd : (s.obj h).data = false := by simpa using hd
        have ho : { s.obj h with data := false } = s.obj h := by rw [← hd]
        simp only [hd, Bool.false_eq_true, ↓reduceIte]
        split
        · refine .retBad h q ok rest hs _ (.inr hd) (s.obj h) _ (.inr rfl) (by simp) (.inl ho.symm) ?_
          simp [St.ev, upd_self]
        · split
          · obtain ⟨o', hg, hd', e⟩ := vpiRemove_gone c (St.ev { s with stack := rest } (.dangling h)) h ok
            rw [e]
            refine .retBad h q ok rest hs _ (.inr hd) o' _ (.inl rfl) (by simp) (.inr (ho ▸ hg)) rfl
          · rename_i hk
            obtain ⟨o', hg, e⟩ := afterOneShot_gone c (St.ev { s with stack := rest } (.dangling h)) h ok hk
            rw [e]
            refine .retBad h q ok rest hs _ (.inr hd) o' _ (.inl rfl) (by simp) (.inr (ho ▸ hg)) rfl
  | drain pass ok =>
    simp only [exec] at he
    split at he
    rotate_left
    · cases he
    rename_i hh
    split at he
    · cases he; exact .idle pass ok hh.1 hh.2.1 hh.2.2 (by assumption)
    · cases he
      exact .drain pass ok hh.1 hh.2.1 hh.2.2 _ _ (by assumption) _ (runCb_cases ..)

/-! Queue and stack. -/
structure QInv (c : Cfg) (s : St) : Prop where
  queued : c.queued = true → s.reacting = false → s.queue = [] ∧ s.stack = []
  direct : c.queued = false → s.queue = []
  front : ∀ h, (h, true) ∈ s.stack → ∃ rest, s.queue = h :: rest
  plain : c.queued = false → ∀ h, (h, true) ∉ s.stack
  one : c.queued = true → s.stack.length ≤ 1

/-! Life of a callback. -/
structure AInv (s : St) : Prop where
  fresh : ∀ h, s.n ≤ h → s.obj h = {} ∧ h ∉ s.queue
  freshLog : ∀ h, s.n ≤ h → (∀ p, .fire h p ∉ s.log) ∧ .run h ∉ s.log ∧ .remove h ∉ s.log
  held : ∀ h, (s.obj h).held = true → (s.obj h).alive = true ∧ (s.obj h).data = true ∧
    (s.obj h).removed = false ∧ .run h ∉ s.log ∧ .remove h ∉ s.log
  data : ∀ h, (s.obj h).alive = true → (s.obj h).removed = false → (s.obj h).data = true ∧
    .remove h ∉ s.log
  removed : ∀ h, (s.obj h).removed = true → .run h ∈ s.log ∨ .remove h ∈ s.log
  once : ∀ h, .run h ∈ s.log → .remove h ∉ s.log
  stack : ∀ h q, (h, q) ∈ s.stack → .run h ∈ s.log

set_option maxHeartbeats 1000000 in
theorem AInv.step {c : Cfg} {s s' : St} {a : Act} (h : AInv s) (he : exec c s a = some s') :
    AInv s' := by
  obtain ⟨h1, h2, h3, h4, h5, h6, h7⟩ := h
  replace he := exec_step he
  cases he <;> (try rename_i hx; cases hx) <;>
    (constructor <;> try simp only [upd_same, upd_upd] at *) <;>
    (try simp only [upd_eq, List.mem_append, List.mem_singleton, reduceCtorEq, or_false, Ev.run.injEq, Ev.fire.injEq, Ev.remove.injEq] at *) <;>
    grind [List.mem_of_mem_tail, List.mem_of_mem_erase, Gone, pop]

set_option maxHeartbeats 1000000 in
theorem QInv.step {c : Cfg} {s s' : St} {a : Act} (h : QInv c s) (hA : AInv s)
    (he : exec c s a = some s') : QInv c s' := by
  obtain ⟨h1, h2, h3, h4, h5⟩ := h
  have a1 := hA.held
  have a2 := hA.stack
  clear hA
  replace he := exec_step he
  cases he <;> (try rename_i hx; cases hx) <;>
    (constructor <;> try simp only [upd_same, upd_upd] at *) <;>
    (try simp only [upd_eq, List.mem_append, List.mem_singleton, reduceCtorEq, or_false, Ev.run.injEq, Ev.fire.injEq, Ev.remove.injEq] at *) <;>
    grind [List.mem_of_mem_tail, List.mem_of_mem_erase, Gone, pop]

/-! What becomes of one-shot callbacks. -/
structure OInv (c : Cfg) (s : St) : Prop where
  reg : ∀ h, (s.obj h).registered = true → (s.obj h).kind = .oneShot → (s.obj h).alive = true
  fired : ∀ h, (s.obj h).kind = .oneShot → ∀ p, .fire h p ∈ s.log →
    .run h ∈ s.log ∨ .remove h ∈ s.log ∨ h ∈ s.queue
  quiet : ∀ h, (s.obj h).kind = .oneShot → c.recurring = false → ∀ p, .fire h p ∈ s.log →
    (s.obj h).registered = false
  shot : ∀ h, (s.obj h).kind = .oneShot → (s.obj h).alive = false → ∀ p, .fire h p ∈ s.log →
    .run h ∈ s.log ∨ .remove h ∈ s.log
  ranFired : ∀ h, .run h ∈ s.log → ∃ p, .fire h p ∈ s.log
  queueFired : ∀ h, h ∈ s.queue → ∃ p, .fire h p ∈ s.log

set_option maxHeartbeats 1000000 in
theorem OInv.step {c : Cfg} {s s' : St} {a : Act} (h : OInv c s) (hA : AInv s) (hQ : QInv c s)
    (he : exec c s a = some s') : OInv c s' := by
  obtain ⟨h1, h2, h3, h4, h5, h6⟩ := h
  obtain ⟨a1, a2, a3, a4, a5, a6, a7⟩ := hA
  have q := hQ.front
  clear hQ
  replace he := exec_step he
  cases he <;> (try rename_i hx; cases hx) <;>
    (constructor <;> try simp only [upd_same, upd_upd] at *) <;>
    (try simp only [upd_eq, List.mem_append, List.mem_singleton, reduceCtorEq, or_false, Ev.run.injEq, Ev.fire.injEq, Ev.remove.injEq] at *) <;>
    grind [List.mem_of_mem_tail, List.mem_of_mem_erase, Gone, pop]


end Verif.GpiCb
