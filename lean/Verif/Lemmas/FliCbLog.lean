import Verif.Lemmas.FliCb
/-! The log of the callbacks of the FLI. -/
namespace Verif.FliCb

open Sched (upd)
open FliCbSpec

/-- The registration an event is about. -/
def Ev.reg : Ev → Nat
  | .register _ r => r
  | .fire r _ => r
  | .run r => r
  | .ended _ r => r
  | .remove r => r
  | .dangling r => r

structure LInv (c : Cfg) (s : St) : Prop where
  bound : ∀ e, e ∈ s.log → e.reg < s.regs
  regd : ∀ r, r < s.regs → ∀ k, .register k r ∈ s.log ↔ (s.obj (s.hdl r)).kind = k
  heldClean : ∀ r, s.held r = true → .run r ∉ s.log ∧ .remove r ∉ s.log
  excl : ∀ r, .run r ∈ s.log → .remove r ∉ s.log
  fate : ∀ r, r < s.regs → s.held r = true ∨ .run r ∈ s.log ∨ .remove r ∈ s.log
  removed : ∀ o, o < s.n → o ∉ s.free (s.obj o).kind → s.alive (s.obj o).data = false → .remove (s.obj o).data ∈ s.log
  dang : ∀ r, .dangling r ∈ s.log → c.withdraws = false ∧ .register .value r ∈ s.log
  ended : ∀ r, r < s.regs → ∀ k, .ended k r ∈ s.log ↔ ((s.obj (s.hdl r)).kind = k ∧ ¬ Active s r)
  fired : ∀ o r, (s.obj o).kind ≠ .value → (s.obj o).armed = some r → ∀ p, .fire r p ∉ s.log
  eventReg : ∀ o r, (s.obj o).event = some r → .register .value r ∈ s.log
  dataKind : ∀ o, o < s.n → .register (s.obj o).kind (s.obj o).data ∈ s.log

theorem LInv.init (c : Cfg) : LInv c {} := by
  constructor <;> simp

theorem LInv.lt {c : Cfg} {s : St} (hl : LInv c s) : (∀ k r, .register k r ∈ s.log → r < s.regs) ∧ (∀ r p, .fire r p ∈ s.log → r < s.regs) ∧
    (∀ r, .run r ∈ s.log → r < s.regs) ∧ (∀ k r, .ended k r ∈ s.log → r < s.regs) ∧ (∀ r, .remove r ∈ s.log → r < s.regs) ∧
    (∀ r, .dangling r ∈ s.log → r < s.regs) :=
  ⟨fun _ _ h => hl.bound _ h, fun _ _ h => hl.bound _ h, fun _ h => hl.bound _ h, fun _ _ h => hl.bound _ h, fun _ h => hl.bound _ h,
    fun _ h => hl.bound _ h⟩

macro "log_simp" : tactic => `(tactic| simp only [upd_ap, List.mem_append, List.mem_cons, List.not_mem_nil, or_false, Active])

section
variable {c : Cfg} {s s' : St} (hi : Inv c s) (hl : LInv c s) (h : Step c s s')
include hi hl h

theorem lBound : ∀ e, e ∈ s'.log → e.reg < s'.regs := by
  have h1 := hl.bound
  have h2 := hi.heldActive
  have h3 := hi.armedHdl
  have h4 := hi.runActive
  have h5 := hi.eventLt
  have h6 := hi.dataLt
  have h7 := hl.eventReg
  have h8 := hl.lt.1
  cases h <;> log_simp <;> grind [Ev.reg]

theorem lRegd : ∀ r, r < s'.regs → ∀ k, .register k r ∈ s'.log ↔ (s'.obj (s'.hdl r)).kind = k := by
  have h1 := hl.regd
  have h2 := hl.lt.1
  have h3 := hi.hdlOk
  have h4 := hi.freeOk
  cases h <;> log_simp <;> grind

theorem lHeldClean : ∀ r, s'.held r = true → .run r ∉ s'.log ∧ .remove r ∉ s'.log := by
  have h1 := hl.heldClean
  obtain ⟨-, -, h2, -, h3, -⟩ := hl.lt
  cases h <;> log_simp <;> grind

theorem lExcl : ∀ r, .run r ∈ s'.log → .remove r ∉ s'.log := by
  have h1 := hl.heldClean
  have h2 := hl.excl
  have h3 := hi.aliveCase
  have h4 := hi.dead
  have h5 := hi.armedHdl
  cases h <;> log_simp <;> grind

theorem lFate : ∀ r, r < s'.regs → s'.held r = true ∨ .run r ∈ s'.log ∨ .remove r ∈ s'.log := by
  have h1 := hl.fate
  cases h <;> log_simp <;> grind

theorem lRemoved : ∀ o, o < s'.n → o ∉ s'.free (s'.obj o).kind → s'.alive (s'.obj o).data = false → .remove (s'.obj o).data ∈ s'.log := by
  have h1 := hl.removed
  have h2 := hi.busy
  have h3 := hi.runActive
  have h4 := hi.freeOk
  have h5 := hi.freeNd
  cases h <;> log_simp <;> grind

theorem lDang : ∀ r, .dangling r ∈ s'.log → c.withdraws = false ∧ .register .value r ∈ s'.log := by
  have h1 := hl.dang
  have h2 := hl.dataKind
  have h3 := hi.eventLt
  have h4 := hi.eventOk
  have h5 := hi.dead
  cases h <;> log_simp <;> grind

theorem lEnded : ∀ r, r < s'.regs → ∀ k, .ended k r ∈ s'.log ↔ ((s'.obj (s'.hdl r)).kind = k ∧ ¬ Active s' r) := by
  have h1 := hl.ended
  have h2 := hl.lt.2.2.2.1
  have h3 := hi.hdlOk
  have h4 := hi.freeOk
  have h5 := hi.heldActive
  have h6 := hi.runActive
  have h7 := hi.armedHdl
  have h8 := hi.freeNd
  cases h <;> simp only [Active] at * <;> log_simp <;> grind

theorem lFired : ∀ o r, (s'.obj o).kind ≠ .value → (s'.obj o).armed = some r → ∀ p, .fire r p ∉ s'.log := by
  have h1 := hl.fired
  have h2 := hi.armedHdl
  have h3 := hl.eventReg
  have h4 := hl.regd
  have h5 := hl.lt.2.1
  have h6 := hl.lt.1
  cases h <;> log_simp <;> grind

theorem lEventReg : ∀ o r, (s'.obj o).event = some r → .register .value r ∈ s'.log := by
  have h1 := hl.eventReg
  have h2 := hi.armedHdl
  have h3 := hl.dataKind
  cases h <;> log_simp <;> grind

theorem lDataKind : ∀ o, o < s'.n → .register (s'.obj o).kind (s'.obj o).data ∈ s'.log := by
  have h1 := hl.dataKind
  have h2 := hi.freeOk
  cases h <;> log_simp <;> grind

theorem Step.linv : LInv c s' :=
  ⟨lBound hi hl h, lRegd hi hl h, lHeldClean hi hl h, lExcl hi hl h, lFate hi hl h, lRemoved hi hl h, lDang hi hl h, lEnded hi hl h,
    lFired hi hl h, lEventReg hi hl h, lDataKind hi hl h⟩

end

end Verif.FliCb
