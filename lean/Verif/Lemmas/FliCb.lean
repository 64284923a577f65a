import Verif.Spec.FliCb
/-! Invariants of the callbacks of the FLI. -/
namespace Verif.FliCb

open Sched (upd)
open FliCbSpec

theorem upd_ap {α β : Type} [DecidableEq α] (f : α → β) (a x : α) (b : β) : upd f a b x = if x = a then b else f x := by
  simp [upd]

theorem upd_twice {α β : Type} [DecidableEq α] (f : α → β) (a : α) (b b' : β) : upd (upd f a b) a b' = upd f a b' := by
  funext x; simp only [upd_ap]; split <;> rfl

/-- The steps, spelled out. -/
inductive Step (c : Cfg) (s : St) : St → Prop
  | reuse (k : Kind) (o : Nat) (rest : List Nat) (hf : s.free k = o :: rest) : Step c s
      { s with
        obj := upd s.obj o { s.obj o with removed := if k = .value then (s.obj o).removed else false, armed := some s.regs, data := s.regs }
        free := upd s.free k rest, regs := s.regs + 1, hdl := upd s.hdl s.regs o, alive := upd s.alive s.regs true
        held := upd s.held s.regs true, log := s.log ++ [.register k s.regs] }
  | fresh (k : Kind) (hf : s.free k = []) : Step c s
      { s with
        n := s.n + 1
        obj := upd s.obj s.n { kind := k, armed := some s.regs, data := s.regs }
        regs := s.regs + 1, hdl := upd s.hdl s.regs s.n, alive := upd s.alive s.regs true
        held := upd s.held s.regs true, log := s.log ++ [.register k s.regs] }
  | removeWake (r : Nat) (hh : s.held r = true) (hk : (s.obj (s.hdl r)).kind ≠ .value) : Step c s
      { s with
        obj := upd s.obj (s.hdl r) { s.obj (s.hdl r) with removed := true }
        alive := upd s.alive r false, held := upd s.held r false, log := s.log ++ [.remove r] }
  | removeValue (r : Nat) (hh : s.held r = true) (hk : (s.obj (s.hdl r)).kind = .value) : Step c s
      { s with
        obj := upd s.obj (s.hdl r) { s.obj (s.hdl r) with armed := none, event := if c.withdraws then none else (s.obj (s.hdl r)).event }
        free := upd s.free .value (s.hdl r :: s.free .value)
        alive := upd s.alive r false, held := upd s.held r false, log := s.log ++ [.remove r, .ended .value r] }
  | event (o r : Nat) (hk : (s.obj o).kind = .value) (ha : (s.obj o).armed = some r) : Step c s
      { s with obj := upd s.obj o { s.obj o with event := some r } }
  | fireFail (o r : Nat) (hx : s.running = none) (hk : (s.obj o).kind = .value) (he : (s.obj o).event = some r) : Step c s
      { s with obj := upd s.obj o { s.obj o with event := none }, log := s.log ++ [.fire r false] }
  | fireValue (o r : Nat) (hx : s.running = none) (hk : (s.obj o).kind = .value) (he : (s.obj o).event = some r)
      (ha : s.alive (s.obj o).data = true) : Step c s
      { s with
        obj := upd s.obj o { s.obj o with event := none }, held := upd s.held (s.obj o).data false
        running := some (o, (s.obj o).data), log := s.log ++ [.fire r true, .run (s.obj o).data] }
  | fireDangling (o r : Nat) (hx : s.running = none) (hk : (s.obj o).kind = .value) (he : (s.obj o).event = some r)
      (ha : s.alive (s.obj o).data = false) : Step c s
      { s with obj := upd s.obj o { s.obj o with event := none }, log := s.log ++ [.fire r true, .dangling (s.obj o).data] }
  | fireRemoved (o r : Nat) (pass : Bool) (hx : s.running = none) (hk : (s.obj o).kind ≠ .value) (ha : (s.obj o).armed = some r)
      (hr : (s.obj o).removed = true) : Step c s
      { s with
        obj := upd s.obj o { s.obj o with armed := none }
        free := upd s.free (s.obj o).kind (o :: s.free (s.obj o).kind)
        log := s.log ++ [.fire r pass, .ended (s.obj o).kind r] }
  | fireWake (o r : Nat) (pass : Bool) (hx : s.running = none) (hk : (s.obj o).kind ≠ .value) (ha : (s.obj o).armed = some r)
      (hr : (s.obj o).removed = false) (hd : (s.obj o).data = r) : Step c s
      { s with
        obj := upd s.obj o { s.obj o with armed := none }, held := upd s.held r false
        running := some (o, r), log := s.log ++ [.fire r pass, .run r] }
  | retWake (o r : Nat) (hx : s.running = some (o, r)) (hk : (s.obj o).kind ≠ .value) : Step c s
      { s with
        free := upd s.free (s.obj o).kind (o :: s.free (s.obj o).kind)
        alive := upd s.alive r false, running := none, log := s.log ++ [.ended (s.obj o).kind r] }
  | retValue (o r : Nat) (hx : s.running = some (o, r)) (hk : (s.obj o).kind = .value) : Step c s
      { s with
        obj := upd s.obj o { s.obj o with armed := none, event := if c.withdraws then none else (s.obj o).event }
        free := upd s.free .value (o :: s.free .value)
        alive := upd s.alive r false, running := none, log := s.log ++ [.ended .value r] }

/-- The state without the log. -/
structure Inv (c : Cfg) (s : St) : Prop where
  freeOk : ∀ k o, o ∈ s.free k → o < s.n ∧ (s.obj o).kind = k
  freeNd : ∀ k, (s.free k).Nodup
  hdlOk : ∀ r, r < s.regs → s.hdl r < s.n
  busy : ∀ o, o < s.n → o ∉ s.free (s.obj o).kind → (s.obj o).data < s.regs ∧ s.hdl (s.obj o).data = o
  aliveOk : ∀ r, s.alive r = true → r < s.regs ∧ (s.obj (s.hdl r)).data = r ∧ s.hdl r ∉ s.free (s.obj (s.hdl r)).kind
  heldOk : ∀ r, s.held r = true → s.alive r = true ∧ s.running ≠ some (s.hdl r, r)
  runOk : ∀ o r, s.running = some (o, r) → s.alive r = true ∧ s.held r = false ∧ s.hdl r = o
  aliveCase : ∀ r, s.alive r = true → s.held r = true ∨ s.running = some (s.hdl r, r)
  dead : ∀ o, o < s.n → o ∉ s.free (s.obj o).kind → s.alive (s.obj o).data = false →
    (s.obj o).kind ≠ .value ∧ (s.obj o).removed = true
  notRemoved : ∀ o, o < s.n → o ∉ s.free (s.obj o).kind → s.alive (s.obj o).data = true → (s.obj o).kind ≠ .value →
    (s.obj o).removed = false
  armedWake : ∀ o, o < s.n → o ∉ s.free (s.obj o).kind → (s.obj o).kind ≠ .value →
    (s.obj o).armed = some (s.obj o).data ∧ s.running ≠ some (o, (s.obj o).data) ∨
      (s.obj o).armed = none ∧ s.running = some (o, (s.obj o).data)
  armedVal : ∀ o, o < s.n → o ∉ s.free (s.obj o).kind → (s.obj o).kind = .value → (s.obj o).armed = some (s.obj o).data
  armedFree : ∀ o, o ∈ s.free (s.obj o).kind → (s.obj o).armed = none
  armedNew : ∀ o, s.n ≤ o → (s.obj o).armed = none ∧ (s.obj o).event = none
  eventOk : c.withdraws = true → ∀ o r, (s.obj o).event = some r →
    (s.obj o).kind = .value ∧ o ∉ s.free (s.obj o).kind ∧ (s.obj o).data = r
  eventKind : ∀ o r, (s.obj o).event = some r → (s.obj o).kind = .value
  dataLt : ∀ o, o < s.n → (s.obj o).data < s.regs
  freeDead : ∀ o, o < s.n → o ∈ s.free (s.obj o).kind → s.alive (s.obj o).data = false

theorem Inv.init (c : Cfg) : Inv c {} := by
  constructor <;> simp

theorem exec_step {c : Cfg} {s s' : St} {a : Act} (hi : Inv c s) (he : exec c s a = some s') : Step c s s' := by
  cases a with
  | register k =>
    simp only [exec, Option.some.injEq] at he
    subst he
    unfold register acquire
    cases hf : s.free k with
    | cons o rest =>
      refine Eq.mp ?_ (Step.reuse (c := c) k o rest hf)
      rfl
    | nil =>
      refine Eq.mp ?_ (Step.fresh (c := c) k hf)
      simp only [St.set, St.ev, upd_twice]
      congr 1
      simp [upd_ap, upd_twice]
  | remove r =>
    simp only [exec] at he
    split at he
    · rename_i hh
      have h1 := hi.heldOk r hh
      have h2 := hi.aliveOk r h1.1
      split at he
      · rename_i hk
        injection he with he
        subst he
        refine Eq.mp ?_ (Step.removeValue (c := c) r hh ?_)
        · simp [delete, h2, h1, St.ev, release, desensitize, St.set, upd_ap] at hk ⊢
          simp [hk]
        · simpa [delete, h2, h1, St.ev] using hk
      · rename_i hk
        injection he with he
        subst he
        refine Eq.mp ?_ (Step.removeWake (c := c) r hh ?_)
        · simp [delete, h2, h1, St.ev, St.set]
        · simpa [delete, h2, h1, St.ev] using hk
    · exact absurd he (by simp)
  | event o =>
    simp only [exec] at he
    split at he
    · rename_i h
      obtain ⟨r, hr⟩ := Option.isSome_iff_exists.1 h.2
      injection he with he
      subst he
      have := Step.event (c := c) o r h.1 hr
      simpa only [St.set, hr] using this
    · exact absurd he (by simp)
  | fire o pass =>
    simp only [exec] at he
    split at he
    · exact absurd he (by simp)
    · rename_i hx
      have hx : s.running = none := by simpa using hx
      split at he
      · rename_i hk
        split at he
        · exact absurd he (by simp)
        · rename_i r hr
          split at he
          · rename_i hp
            injection he with he
            subst he
            cases ha : s.alive (s.obj o).data with
            | true =>
              refine Eq.mp ?_ (Step.fireValue (c := c) o r hx hk hr ha)
              simp [callUp, St.ev, St.set, upd_ap, ha, hp]
            | false =>
              refine Eq.mp ?_ (Step.fireDangling (c := c) o r hx hk hr ha)
              simp [callUp, St.ev, St.set, upd_ap, ha, hp]
          · rename_i hp
            injection he with he
            subst he
            have hp : pass = false := by simpa using hp
            subst hp
            exact .fireFail o r hx hk hr
      · rename_i hk
        split at he
        · exact absurd he (by simp)
        · rename_i r hr
          have hn : o < s.n := by
            apply Classical.byContradiction
            intro hn
            have := hi.armedNew o (by omega)
            rw [this.1] at hr; cases hr
          have hnf : o ∉ s.free (s.obj o).kind := by
            intro hf
            rw [hi.armedFree o hf] at hr; cases hr
          have hd : (s.obj o).data = r := by
            have := hi.armedWake o hn hnf hk
            rw [hr] at this
            simpa using this.resolve_right (by simp) |>.1 |>.symm
          split at he
          · rename_i hrm
            injection he with he
            subst he
            refine Eq.mp ?_ (Step.fireRemoved (c := c) o r pass hx hk hr (by simpa [St.ev, St.set, upd_ap] using hrm))
            simp [release, St.ev, St.set, upd_ap]
          · rename_i hrm
            have hrm : (s.obj o).removed = false := by simpa [St.ev, St.set, upd_ap] using hrm
            injection he with he
            subst he
            have ha : s.alive r = true := by
              apply Classical.byContradiction
              intro ha
              have := (hi.dead o hn hnf (by rw [hd]; simpa using ha)).2
              rw [hrm] at this; cases this
            refine Eq.mp ?_ (Step.fireWake (c := c) o r pass hx hk hr hrm hd)
            simp [callUp, St.ev, St.set, upd_ap, hd, ha]
  | ret =>
    simp only [exec] at he
    split at he
    · exact absurd he (by simp)
    · rename_i o r hx
      have h1 := hi.runOk o r hx
      split at he
      · rename_i hk
        injection he with he
        subst he
        refine Eq.mp ?_ (Step.retValue (c := c) o r hx ?_)
        · simp [delete, h1, release, St.ev, desensitize, St.set, upd_ap] at hk ⊢
          simp [hk]
        · simpa [delete, h1] using hk
      · rename_i hk
        injection he with he
        subst he
        refine Eq.mp ?_ (Step.retWake (c := c) o r hx ?_)
        · simp [delete, h1, release, St.ev]
        · simpa [delete, h1] using hk

/-- The registration is not over: it has an object. -/
def Active (s : St) (r : Nat) : Prop := (s.obj (s.hdl r)).data = r ∧ s.hdl r ∉ s.free (s.obj (s.hdl r)).kind

theorem Inv.armedHdl {c : Cfg} {s : St} (hi : Inv c s) (o r : Nat) (ha : (s.obj o).armed = some r) :
    o < s.n ∧ o ∉ s.free (s.obj o).kind ∧ (s.obj o).data = r ∧ s.hdl r = o := by
  have h1 : o < s.n := by
    apply Classical.byContradiction
    intro h
    have := (hi.armedNew o (by omega)).1
    rw [ha] at this; cases this
  have h2 : o ∉ s.free (s.obj o).kind := by
    intro h
    have := hi.armedFree o h
    rw [ha] at this; cases this
  have h3 : (s.obj o).data = r := by
    by_cases hk : (s.obj o).kind = .value
    · have := hi.armedVal o h1 h2 hk
      rw [ha] at this; exact (Option.some.inj this).symm
    · rcases hi.armedWake o h1 h2 hk with h | h
      · rw [ha] at h; exact (Option.some.inj h.1).symm
      · rw [ha] at h; cases h.1
  exact ⟨h1, h2, h3, h3 ▸ (hi.busy o h1 h2).2⟩

theorem Inv.runActive {c : Cfg} {s : St} (hi : Inv c s) (o r : Nat) (hx : s.running = some (o, r)) :
    o < s.n ∧ o ∉ s.free (s.obj o).kind ∧ (s.obj o).data = r ∧ s.hdl r = o ∧ r < s.regs := by
  obtain ⟨h1, -, h2⟩ := hi.runOk o r hx
  obtain ⟨h3, h4, h5⟩ := hi.aliveOk r h1
  rw [h2] at h4 h5
  exact ⟨h2 ▸ hi.hdlOk r h3, h5, h4, h2, h3⟩

theorem Inv.heldActive {c : Cfg} {s : St} (hi : Inv c s) (r : Nat) (hh : s.held r = true) : r < s.regs ∧ s.hdl r < s.n ∧ Active s r := by
  obtain ⟨h3, h4, h5⟩ := hi.aliveOk r (hi.heldOk r hh).1
  exact ⟨h3, hi.hdlOk r h3, h4, h5⟩

theorem Inv.eventLt {c : Cfg} {s : St} (hi : Inv c s) (o r : Nat) (he : (s.obj o).event = some r) : o < s.n := by
  apply Classical.byContradiction
  intro h
  have := (hi.armedNew o (by omega)).2
  rw [he] at this; cases this

section
variable {c : Cfg} {s s' : St} (hi : Inv c s) (h : Step c s s')
include hi h

theorem iFreeOk : ∀ k o, o ∈ s'.free k → o < s'.n ∧ (s'.obj o).kind = k := by
  have h0 := hi.freeOk
  have h1 := hi.freeNd
  have h2 := hi.hdlOk
  have h3 := hi.busy
  have h4 := hi.dataLt
  have h5 := hi.heldActive
  have h6 := hi.runActive
  have h7 := hi.armedHdl
  have h8 := hi.eventLt
  simp only [Active] at *
  cases h <;> simp only [upd_ap] <;> grind

theorem iFreeNd : ∀ k, (s'.free k).Nodup := by
  have h0 := hi.freeNd
  have h1 := hi.freeOk
  have h2 := hi.hdlOk
  have h3 := hi.busy
  have h4 := hi.dataLt
  have h5 := hi.heldActive
  have h6 := hi.runActive
  have h7 := hi.armedHdl
  have h8 := hi.eventLt
  simp only [Active] at *
  cases h <;> simp only [upd_ap] <;> grind

theorem iHdlOk : ∀ r, r < s'.regs → s'.hdl r < s'.n := by
  have h0 := hi.hdlOk
  have h1 := hi.freeOk
  have h2 := hi.freeNd
  have h3 := hi.busy
  have h4 := hi.dataLt
  have h5 := hi.heldActive
  have h6 := hi.runActive
  have h7 := hi.armedHdl
  have h8 := hi.eventLt
  simp only [Active] at *
  cases h <;> simp only [upd_ap] <;> grind

theorem iBusy : ∀ o, o < s'.n → o ∉ s'.free (s'.obj o).kind → (s'.obj o).data < s'.regs ∧ s'.hdl (s'.obj o).data = o := by
  have h0 := hi.busy
  have h1 := hi.freeOk
  have h2 := hi.freeNd
  have h3 := hi.hdlOk
  have h4 := hi.dataLt
  have h5 := hi.heldActive
  have h6 := hi.runActive
  have h7 := hi.armedHdl
  have h8 := hi.eventLt
  simp only [Active] at *
  cases h <;> simp only [upd_ap] <;> grind

theorem iAliveOk : ∀ r, s'.alive r = true → r < s'.regs ∧ (s'.obj (s'.hdl r)).data = r ∧ s'.hdl r ∉ s'.free (s'.obj (s'.hdl r)).kind := by
  have h0 := hi.aliveOk
  have h1 := hi.freeOk
  have h2 := hi.freeNd
  have h3 := hi.hdlOk
  have h4 := hi.busy
  have h5 := hi.dataLt
  have h6 := hi.heldActive
  have h7 := hi.runActive
  have h8 := hi.armedHdl
  have h9 := hi.eventLt
  have h10 := hi.notRemoved
  simp only [Active] at *
  cases h <;> simp only [upd_ap] <;> grind

theorem iHeldOk : ∀ r, s'.held r = true → s'.alive r = true ∧ s'.running ≠ some (s'.hdl r, r) := by
  have h0 := hi.heldOk
  have h1 := hi.freeOk
  have h2 := hi.freeNd
  have h3 := hi.hdlOk
  have h4 := hi.busy
  have h5 := hi.dataLt
  have h6 := hi.heldActive
  have h7 := hi.runActive
  have h8 := hi.armedHdl
  have h9 := hi.eventLt
  have h10 := hi.runOk
  have h11 := hi.aliveCase
  simp only [Active] at *
  cases h <;> simp only [upd_ap] <;> grind

theorem iRunOk : ∀ o r, s'.running = some (o, r) → s'.alive r = true ∧ s'.held r = false ∧ s'.hdl r = o := by
  have h0 := hi.runOk
  have h1 := hi.freeOk
  have h2 := hi.freeNd
  have h3 := hi.hdlOk
  have h4 := hi.busy
  have h5 := hi.dataLt
  have h6 := hi.heldActive
  have h7 := hi.runActive
  have h8 := hi.armedHdl
  have h9 := hi.eventLt
  have h10 := hi.heldOk
  have h11 := hi.aliveCase
  have h12 := hi.aliveOk
  have h13 := hi.freeDead
  have h14 := hi.dead
  simp only [Active] at *
  cases h <;> simp only [upd_ap] <;> grind

theorem iAliveCase : ∀ r, s'.alive r = true → s'.held r = true ∨ s'.running = some (s'.hdl r, r) := by
  have h0 := hi.aliveCase
  have h1 := hi.freeOk
  have h2 := hi.freeNd
  have h3 := hi.hdlOk
  have h4 := hi.busy
  have h5 := hi.dataLt
  have h6 := hi.heldActive
  have h7 := hi.runActive
  have h8 := hi.armedHdl
  have h9 := hi.eventLt
  have h10 := hi.runOk
  have h11 := hi.heldOk
  have h12 := hi.freeDead
  have h13 := hi.aliveOk
  simp only [Active] at *
  cases h <;> simp only [upd_ap] <;> grind

theorem iDead : ∀ o, o < s'.n → o ∉ s'.free (s'.obj o).kind → s'.alive (s'.obj o).data = false →
    (s'.obj o).kind ≠ .value ∧ (s'.obj o).removed = true := by
  have h0 := hi.dead
  have h1 := hi.freeOk
  have h2 := hi.freeNd
  have h3 := hi.hdlOk
  have h4 := hi.busy
  have h5 := hi.dataLt
  have h6 := hi.heldActive
  have h7 := hi.runActive
  have h8 := hi.armedHdl
  have h9 := hi.eventLt
  have h10 := hi.notRemoved
  simp only [Active] at *
  cases h <;> simp only [upd_ap] <;> grind

theorem iNotRemoved : ∀ o, o < s'.n → o ∉ s'.free (s'.obj o).kind → s'.alive (s'.obj o).data = true → (s'.obj o).kind ≠ .value →
    (s'.obj o).removed = false := by
  have h0 := hi.notRemoved
  have h1 := hi.freeOk
  have h2 := hi.freeNd
  have h3 := hi.hdlOk
  have h4 := hi.busy
  have h5 := hi.dataLt
  have h6 := hi.heldActive
  have h7 := hi.runActive
  have h8 := hi.armedHdl
  have h9 := hi.eventLt
  have h10 := hi.dead
  simp only [Active] at *
  cases h <;> simp only [upd_ap] <;> grind

theorem iArmedWake : ∀ o, o < s'.n → o ∉ s'.free (s'.obj o).kind → (s'.obj o).kind ≠ .value →
    (s'.obj o).armed = some (s'.obj o).data ∧ s'.running ≠ some (o, (s'.obj o).data) ∨
      (s'.obj o).armed = none ∧ s'.running = some (o, (s'.obj o).data) := by
  have h0 := hi.armedWake
  have h1 := hi.freeOk
  have h2 := hi.freeNd
  have h3 := hi.hdlOk
  have h4 := hi.busy
  have h5 := hi.dataLt
  have h6 := hi.heldActive
  have h7 := hi.runActive
  have h8 := hi.armedHdl
  have h9 := hi.eventLt
  have h10 := hi.armedFree
  simp only [Active] at *
  cases h <;> simp only [upd_ap] <;> grind

theorem iArmedVal : ∀ o, o < s'.n → o ∉ s'.free (s'.obj o).kind → (s'.obj o).kind = .value → (s'.obj o).armed = some (s'.obj o).data := by
  have h0 := hi.armedVal
  have h1 := hi.freeOk
  have h2 := hi.freeNd
  have h3 := hi.hdlOk
  have h4 := hi.busy
  have h5 := hi.dataLt
  have h6 := hi.heldActive
  have h7 := hi.runActive
  have h8 := hi.armedHdl
  have h9 := hi.eventLt
  have h10 := hi.armedFree
  simp only [Active] at *
  cases h <;> simp only [upd_ap] <;> grind

theorem iArmedFree : ∀ o, o ∈ s'.free (s'.obj o).kind → (s'.obj o).armed = none := by
  have h0 := hi.armedFree
  have h1 := hi.freeOk
  have h2 := hi.freeNd
  have h3 := hi.hdlOk
  have h4 := hi.busy
  have h5 := hi.dataLt
  have h6 := hi.heldActive
  have h7 := hi.runActive
  have h8 := hi.armedHdl
  have h9 := hi.eventLt
  have h10 := hi.armedWake
  simp only [Active] at *
  cases h <;> simp only [upd_ap] <;> grind

theorem iArmedNew : ∀ o, s'.n ≤ o → (s'.obj o).armed = none ∧ (s'.obj o).event = none := by
  have h0 := hi.armedNew
  have h1 := hi.freeOk
  have h2 := hi.freeNd
  have h3 := hi.hdlOk
  have h4 := hi.busy
  have h5 := hi.dataLt
  have h6 := hi.heldActive
  have h7 := hi.runActive
  have h8 := hi.armedHdl
  have h9 := hi.eventLt
  simp only [Active] at *
  cases h <;> simp only [upd_ap] <;> grind

theorem iEventOk : c.withdraws = true → ∀ o r, (s'.obj o).event = some r →
    (s'.obj o).kind = .value ∧ o ∉ s'.free (s'.obj o).kind ∧ (s'.obj o).data = r := by
  have h0 := hi.eventOk
  have h1 := hi.freeOk
  have h2 := hi.freeNd
  have h3 := hi.hdlOk
  have h4 := hi.busy
  have h5 := hi.dataLt
  have h6 := hi.heldActive
  have h7 := hi.runActive
  have h8 := hi.armedHdl
  have h9 := hi.eventLt
  have h10 := hi.eventKind
  have h11 := hi.armedVal
  have h12 := hi.armedFree
  simp only [Active] at *
  cases h <;> simp only [upd_ap] <;> grind

theorem iEventKind : ∀ o r, (s'.obj o).event = some r → (s'.obj o).kind = .value := by
  have h0 := hi.eventKind
  have h1 := hi.freeOk
  have h2 := hi.freeNd
  have h3 := hi.hdlOk
  have h4 := hi.busy
  have h5 := hi.dataLt
  have h6 := hi.heldActive
  have h7 := hi.runActive
  have h8 := hi.armedHdl
  have h9 := hi.eventLt
  simp only [Active] at *
  cases h <;> simp only [upd_ap] <;> grind

theorem iDataLt : ∀ o, o < s'.n → (s'.obj o).data < s'.regs := by
  have h0 := hi.dataLt
  have h1 := hi.freeOk
  have h2 := hi.freeNd
  have h3 := hi.hdlOk
  have h4 := hi.busy
  have h5 := hi.heldActive
  have h6 := hi.runActive
  have h7 := hi.armedHdl
  have h8 := hi.eventLt
  simp only [Active] at *
  cases h <;> simp only [upd_ap] <;> grind

theorem iFreeDead : ∀ o, o < s'.n → o ∈ s'.free (s'.obj o).kind → s'.alive (s'.obj o).data = false := by
  have h0 := hi.freeDead
  have h1 := hi.freeOk
  have h2 := hi.freeNd
  have h3 := hi.hdlOk
  have h4 := hi.busy
  have h5 := hi.dataLt
  have h6 := hi.heldActive
  have h7 := hi.runActive
  have h8 := hi.armedHdl
  have h9 := hi.eventLt
  have h10 := hi.notRemoved
  have h11 := hi.aliveOk
  simp only [Active] at *
  cases h <;> simp only [upd_ap] <;> grind

theorem Step.inv : Inv c s' :=
  ⟨iFreeOk hi h, iFreeNd hi h, iHdlOk hi h, iBusy hi h, iAliveOk hi h, iHeldOk hi h, iRunOk hi h, iAliveCase hi h, iDead hi h, iNotRemoved hi h, iArmedWake hi h, iArmedVal hi h, iArmedFree hi h, iArmedNew hi h, iEventOk hi h, iEventKind hi h, iDataLt hi h, iFreeDead hi h⟩

end

end Verif.FliCb
