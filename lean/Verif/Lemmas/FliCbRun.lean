import Verif.Lemmas.FliCbLog
/-! Which runs of the simulator call which functions, and how many processes there are. -/
namespace Verif.FliCb

open Sched (upd)
open FliCbSpec

/-- Facts about the order in the log. -/
structure OInv (c : Cfg) (s : St) : Prop where
  runOnce : ∀ r, s.log.count (.run r) ≤ 1
  fireOnce : ∀ r, .register .value r ∉ s.log → s.log.countP (isFire r) ≤ 1
  called : ∀ r, Sound c r s.log → CalledBySim r s.log
  calls : ∀ r, Sound c r s.log → SimCalls r s.log
  waiting : ∀ r, r < s.regs → (s.obj (s.hdl r)).kind ≠ .value → (∀ p, .fire r p ∉ s.log) → (s.obj (s.hdl r)).armed = some r

theorem OInv.init (c : Cfg) : OInv c {} := by
  constructor <;> simp [CalledBySim, SimCalls]

theorem idx_one (e : Ev) (i : Nat) (x : Ev) : [e][i]? = some x ↔ i = 0 ∧ e = x := by
  match i with
  | 0 => simp
  | i + 1 => simp

theorem idx_two (e e' : Ev) (i : Nat) (x : Ev) : [e, e'][i]? = some x ↔ (i = 0 ∧ e = x) ∨ (i = 1 ∧ e' = x) := by
  match i with
  | 0 => simp
  | 1 => simp
  | i + 2 => simp

theorem called_app {r : Nat} {l t : List Ev} (h : CalledBySim r l) (hreg : .register .value r ∈ t → .run r ∉ l)
    (ht : ∀ i, t[i]? = some (.run r) → ∃ j p, i = j + 1 ∧ t[j]? = some (.fire r p) ∧ (.register .value r ∈ l ++ t → p = true)) :
    CalledBySim r (l ++ t) := by
  intro i hri
  rw [List.getElem?_append] at hri
  split at hri
  · rename_i hlt
    obtain ⟨j, p, h1, h2, h3⟩ := h i hri
    refine ⟨j, p, h1, ?_, ?_⟩
    · rw [List.getElem?_append_left (by omega)]; exact h2
    · intro hx
      rcases List.mem_append.1 hx with hx | hx
      · exact h3 hx
      · exact absurd (List.mem_of_getElem? hri) (hreg hx)
  · obtain ⟨j, p, h1, h2, h3⟩ := ht _ hri
    refine ⟨l.length + j, p, by omega, ?_, h3⟩
    rw [List.getElem?_append_right (by omega), Nat.add_sub_cancel_left]; exact h2

theorem called_two {r r' r'' : Nat} {p : Bool} {l : List Ev} (h : CalledBySim r l)
    (ht : r'' = r → r' = r ∧ (.register .value r ∈ l → p = true)) : CalledBySim r (l ++ [.fire r' p, .run r'']) := by
  refine called_app h (by simp) ?_
  intro i hi
  rw [idx_two] at hi
  rcases hi with hi | hi
  · cases hi.2
  · obtain ⟨h1, h2⟩ := ht (by simpa using hi.2)
    exact ⟨0, p, hi.1, by simp [h1], by simpa using h2⟩

theorem calls_app {r : Nat} {l t : List Ev} (h : SimCalls r l) (hreg : .register .value r ∈ t → ∀ p, .fire r p ∉ l)
    (ht : ∀ i p, t[i]? = some (.fire r p) → (.register .value r ∈ l ++ t → p = true) → .remove r ∈ l ∨ t[i + 1]? = some (.run r)) :
    SimCalls r (l ++ t) := by
  intro i p hri hp
  rw [List.getElem?_append] at hri
  split at hri
  · rename_i hlt
    rcases h i p hri (fun hx => hp (List.mem_append_left _ hx)) with ⟨j, h1, h2⟩ | h1
    · exact .inl ⟨j, h1, by rw [List.getElem?_append_left (by omega)]; exact h2⟩
    · refine .inr ?_
      have : i + 1 < l.length := by
        apply Classical.byContradiction
        intro hx
        rw [List.getElem?_eq_none (by omega)] at h1; cases h1
      rw [List.getElem?_append_left this]; exact h1
  · rename_i hle
    rcases ht _ p hri hp with h1 | h1
    · obtain ⟨j, h2, h3⟩ := List.mem_iff_getElem.1 h1
      exact .inl ⟨j, by omega, by rw [List.getElem?_append_left h2, List.getElem?_eq_getElem h2, h3]⟩
    · refine .inr ?_
      rw [List.getElem?_append_right (by omega), show i + 1 - l.length = i - l.length + 1 by omega]; exact h1

section
variable {c : Cfg} {s s' : St} (hi : Inv c s) (hl : LInv c s) (ho : OInv c s) (h : Step c s s')
include hi hl ho h

theorem oRunOnce : ∀ r, s'.log.count (.run r) ≤ 1 := by
  have h1 := ho.runOnce
  have h2 : ∀ r, s.held r = true → s.log.count (.run r) = 0 := fun r h => List.count_eq_zero.2 (hl.heldClean r h).1
  have h3 := hi.aliveCase
  have h4 := hi.armedHdl
  have h5 := hi.dead
  intro r
  cases h <;> simp only [List.count_append, List.count_cons, List.count_nil, beq_iff_eq, reduceCtorEq, Ev.run.injEq] <;> grind

theorem oFireOnce : ∀ r, .register .value r ∉ s'.log → s'.log.countP (isFire r) ≤ 1 := by
  have h1 := ho.fireOnce
  have h2 : ∀ o r, (s.obj o).kind ≠ .value → (s.obj o).armed = some r → s.log.countP (isFire r) = 0 := by
    intro o r h3 h4
    rw [List.countP_eq_zero]
    intro e he hf
    have := hl.fired o r h3 h4
    cases e <;> simp only [isFire, reduceCtorEq, decide_eq_true_eq] at hf
    subst hf; exact this _ he
  have h3 := hl.eventReg
  intro r
  cases h <;> simp only [List.countP_append, List.countP_cons, List.countP_nil, List.mem_append, List.mem_cons, List.not_mem_nil, or_false,
    isFire] <;> grind

theorem oCalled : ∀ r, Sound c r s'.log → CalledBySim r s'.log := by
  have h1 := ho.called
  have h2 := hl.lt.1
  have h3 := hl.lt.2.2.1
  have h4 := hi.armedHdl
  have h5 := hl.eventReg
  have h6 := hi.eventOk
  have h7 := hl.regd
  have h8 := hl.dataKind
  have h9 := hi.eventLt
  intro r hs
  have h1 := h1 r
  unfold Sound at *
  cases h <;> (try exact h1 hs) <;> (first | apply called_two | apply called_app) <;>
    simp only [idx_one, idx_two, List.mem_append, List.mem_cons, List.not_mem_nil, or_false, reduceCtorEq, and_false, false_and, Ev.run.injEq,
      Ev.register.injEq] at * <;> grind

theorem oCalls : ∀ r, Sound c r s'.log → SimCalls r s'.log := by
  have h1 := ho.calls
  have h2 := hl.lt.1
  have h3 := hl.lt.2.1
  have h4 := hi.armedHdl
  have h5 := hl.eventReg
  have h6 := hi.eventOk
  have h7 := hl.regd
  have h8 := hl.dataKind
  have h9 := hi.eventLt
  have h12 : ∀ o r, (s.obj o).kind ≠ .value → (s.obj o).armed = some r → (s.obj o).removed = true → .remove r ∈ s.log := by
    intro o r hk ha hr
    obtain ⟨i1, i2, i3, i4⟩ := hi.armedHdl o r ha
    refine i3 ▸ hl.removed o i1 i2 ?_
    apply Classical.byContradiction
    intro hx
    have := hi.notRemoved o i1 i2 (by simpa using hx) hk
    rw [hr] at this; cases this
  have h13 := hi.dead
  intro r hs
  have h1 := h1 r
  unfold Sound at *
  cases h <;> (try exact h1 hs) <;> apply calls_app <;>
    simp only [idx_one, idx_two, List.mem_append, List.mem_cons, List.not_mem_nil, or_false, reduceCtorEq, and_false, false_and, Ev.run.injEq,
      Ev.register.injEq] at * <;> grind

theorem oWaiting : ∀ r, r < s'.regs → (s'.obj (s'.hdl r)).kind ≠ .value → (∀ p, .fire r p ∉ s'.log) →
    (s'.obj (s'.hdl r)).armed = some r := by
  have h1 := ho.waiting
  have h2 := hi.hdlOk
  have h3 := hi.freeOk
  have h4 := hi.armedHdl
  have h5 := hi.runActive
  have h6 := hi.armedFree
  have hb : ∀ b : Bool, b = true ∨ b = false := by decide
  intro r g1 g2 g3
  have g4 := g3 true
  have g5 := g3 false
  have h1' := h1 r
  simp only [Bool.forall_bool] at h1'
  clear g3 h1
  cases h <;> simp only [upd_ap, List.mem_append, List.mem_cons, List.not_mem_nil, or_false, Ev.fire.injEq, reduceCtorEq] at * <;> grind

theorem Step.oinv : OInv c s' := ⟨oRunOnce hi hl ho h, oFireOnce hi hl ho h, oCalled hi hl ho h, oCalls hi hl ho h, oWaiting hi hl ho h⟩

end

/-! Processes. -/

theorem inUse_append (k : Kind) (a b : List Ev) : inUse k (a ++ b) = inUse k a + inUse k b := by
  simp only [inUse, List.countP_append]
  omega

theorem prefix_snoc {l p : List Ev} {e : Ev} : p <+: l ++ [e] ↔ p <+: l ∨ p = l ++ [e] := by
  rw [List.prefix_concat_iff]; exact or_comm

/-- One more event: the new peak. -/
theorem peak_snoc {k : Kind} {l : List Ev} {m : Int} (h : IsPeak k l m) (e : Ev) : IsPeak k (l ++ [e]) (max m (inUse k (l ++ [e]))) := by
  obtain ⟨⟨p, h1, h2⟩, h3⟩ := h
  refine ⟨?_, ?_⟩
  · by_cases hm : inUse k (l ++ [e]) ≤ m
    · exact ⟨p, h1.trans (List.prefix_append _ _), by omega⟩
    · exact ⟨l ++ [e], List.prefix_rfl, by omega⟩
  · intro q hq
    rcases prefix_snoc.1 hq with hq | hq
    · have := h3 q hq
      omega
    · subst hq
      omega

structure PInv (s : St) : Prop where
  use : ∀ k, inUse k s.log + (s.free k).length = processes k s
  peak : ∀ k, IsPeak k s.log (processes k s)

theorem PInv.init : PInv {} := by
  refine ⟨fun k => by simp [inUse, processes], fun k => ⟨⟨[], List.prefix_rfl, by simp [inUse, processes]⟩, ?_⟩⟩
  intro p hp
  have : p = [] := by simpa using hp
  subst this
  simp [inUse]

theorem processes_congr {k : Kind} {s s' : St} (hn : s'.n = s.n) (h : ∀ o, o < s.n → (s'.obj o).kind = (s.obj o).kind) :
    processes k s' = processes k s := by
  unfold processes
  rw [hn]
  apply List.countP_congr
  intro o ho
  have := h o (List.mem_range.1 ho)
  simp [this]

theorem use_le {s : St} (h : ∀ k, inUse k s.log + (s.free k).length = processes k s) (k : Kind) : inUse k s.log ≤ processes k s := by
  have := h k; omega

theorem PInv.mk' {s s' : St} (hp : PInv s) (t : List Ev) (ht : s'.log = s.log ++ t)
    (hu : ∀ k, inUse k t + (s'.free k).length = (s.free k).length)
    (hm : t = [] ∨ (∃ e, t = [e]) ∨ ∃ e e', t = [e, e'] ∧ ∀ k, inUse k [e] = 0)
    (hn : ∀ k, processes k s' = processes k s) : PInv s' := by
  have hU : ∀ k, inUse k s'.log + (s'.free k).length = processes k s' := by
    intro k
    rw [ht, inUse_append, hn]
    have := hp.use k
    have := hu k
    omega
  refine ⟨hU, fun k => ?_⟩
  have h0 := use_le hp.use k
  have h1 := use_le hU k
  rw [ht, hn] at h1
  rw [hn, ht]
  rcases hm with rfl | ⟨e, rfl⟩ | ⟨e, e', rfl, he⟩
  · rw [List.append_nil]; exact hp.peak k
  · have := peak_snoc (hp.peak k) e
    rwa [show max (processes k s : Int) (inUse k (s.log ++ [e])) = processes k s by omega] at this
  · have h2 : inUse k (s.log ++ [e]) = inUse k s.log := by rw [inUse_append, he]; omega
    have := peak_snoc (peak_snoc (hp.peak k) e) e'
    rw [List.append_assoc] at this
    rwa [show max (max (processes k s : Int) (inUse k (s.log ++ [e]))) (inUse k (s.log ++ ([e] ++ [e']))) = processes k s by
      simp only [List.singleton_append]; omega] at this

theorem Step.pinv {c : Cfg} {s s' : St} (hi : Inv c s) (hp : PInv s) (h : Step c s s') : PInv s' := by
  have hev : ∀ (k : Kind) (l : List Nat) (o : Nat) k', ((if k' = k then o :: l else s.free k').length : Int) =
      (if k' = k then (l.length : Int) + 1 else (s.free k').length) := by
    intros; split <;> simp
  have hkind : ∀ (o : Nat) (x : Obj), x.kind = (s.obj o).kind → ∀ o', o' < s.n → (upd s.obj o x o').kind = (s.obj o').kind := by
    intro o x hx o' _
    rw [upd_ap]; split
    · rename_i h; rw [h, hx]
    · rfl
  cases h with
  | reuse k o rest hf =>
    refine hp.mk' _ rfl ?_ (.inr (.inl ⟨_, rfl⟩)) (fun k' => processes_congr rfl (hkind _ _ rfl))
    intro k'
    simp only [upd_ap, inUse, List.countP_cons, List.countP_nil, isRegister, isEnded]
    by_cases h : k' = k
    · subst h; simp [hf]; omega
    · have : ¬ k = k' := fun hx => h hx.symm
      simp [h, this]
  | fresh k hf =>
    have hpr : ∀ k', processes k' { s with n := s.n + 1, obj := upd s.obj s.n { kind := k, armed := some s.regs, data := s.regs }, regs := s.regs + 1, hdl := upd s.hdl s.regs s.n, alive := upd s.alive s.regs true, held := upd s.held s.regs true, log := s.log ++ [.register k s.regs] } = processes k' s + if k = k' then 1 else 0 := by
      intro k'
      simp only [processes, List.range_succ, List.countP_append, List.countP_cons, List.countP_nil, upd_ap]
      congr 1
      · apply List.countP_congr
        intro o ho
        have := List.mem_range.1 ho
        simp [show o ≠ s.n by omega]
      · simp
    have hin : ∀ k', inUse k' [Ev.register k s.regs] = if k = k' then 1 else 0 := by
      intro k'
      simp only [inUse, List.countP_cons, List.countP_nil, isRegister, isEnded]
      by_cases h : k = k' <;> simp [h]
    refine ⟨fun k' => ?_, fun k' => ?_⟩
    · rw [hpr, inUse_append, hin]
      have := hp.use k'
      simp only
      split <;> omega
    · rw [hpr]
      have h1 := peak_snoc (hp.peak k') (.register k s.regs)
      have h2 := hp.use k'
      rw [inUse_append, hin] at h1
      split at h1
      · rename_i hk
        subst hk
        rw [hf] at h2
        simp only [List.length_nil] at h2
        rw [show max (processes k s : Int) (inUse k s.log + 1) = ((processes k s + 1 : Nat) : Int) by omega] at h1
        simpa using h1
      · rename_i hk
        rw [show max (processes k' s : Int) (inUse k' s.log + 0) = ((processes k' s : Nat) : Int) by omega] at h1
        simpa [hk] using h1
  | removeWake r hh hk =>
    exact hp.mk' _ rfl (fun k' => by simp [inUse, isRegister, isEnded]) (.inr (.inl ⟨_, rfl⟩))
      (fun k' => processes_congr rfl (hkind _ _ rfl))
  | removeValue r hh hk =>
    refine hp.mk' _ rfl ?_ (.inr (.inr ⟨_, _, rfl, fun k => by simp [inUse, isRegister, isEnded]⟩))
      (fun k' => processes_congr rfl (hkind _ _ rfl))
    intro k'
    simp only [upd_ap, hev, inUse, List.countP_cons, List.countP_nil, isRegister, isEnded]
    by_cases h : k' = .value
    · subst h; simp; omega
    · have : ¬ Kind.value = k' := fun hx => h hx.symm
      simp [h, this]
  | event o r hk ha =>
    exact hp.mk' [] (by simp) (fun k' => by simp [inUse]) (.inl rfl) (fun k' => processes_congr rfl (hkind _ _ rfl))
  | fireFail o r hx hk he =>
    exact hp.mk' _ rfl (fun k' => by simp [inUse, isRegister, isEnded]) (.inr (.inl ⟨_, rfl⟩))
      (fun k' => processes_congr rfl (hkind _ _ rfl))
  | fireValue o r hx hk he ha =>
    exact hp.mk' _ rfl (fun k' => by simp [inUse, isRegister, isEnded]) (.inr (.inr ⟨_, _, rfl, fun k => by simp [inUse, isRegister, isEnded]⟩))
      (fun k' => processes_congr rfl (hkind _ _ rfl))
  | fireDangling o r hx hk he ha =>
    exact hp.mk' _ rfl (fun k' => by simp [inUse, isRegister, isEnded]) (.inr (.inr ⟨_, _, rfl, fun k => by simp [inUse, isRegister, isEnded]⟩))
      (fun k' => processes_congr rfl (hkind _ _ rfl))
  | fireRemoved o r pass hx hk ha hr =>
    refine hp.mk' _ rfl ?_ (.inr (.inr ⟨_, _, rfl, fun k => by simp [inUse, isRegister, isEnded]⟩))
      (fun k' => processes_congr rfl (hkind _ _ rfl))
    intro k'
    simp only [upd_ap, hev, inUse, List.countP_cons, List.countP_nil, isRegister, isEnded]
    by_cases h : k' = (s.obj o).kind
    · subst h; simp; omega
    · have : ¬ (s.obj o).kind = k' := fun hx => h hx.symm
      simp [h, this]
  | fireWake o r pass hx hk ha hr hd =>
    exact hp.mk' _ rfl (fun k' => by simp [inUse, isRegister, isEnded]) (.inr (.inr ⟨_, _, rfl, fun k => by simp [inUse, isRegister, isEnded]⟩))
      (fun k' => processes_congr rfl (hkind _ _ rfl))
  | retWake o r hx hk =>
    refine hp.mk' _ rfl ?_ (.inr (.inl ⟨_, rfl⟩)) (fun k' => processes_congr rfl (fun _ _ => rfl))
    intro k'
    simp only [upd_ap, hev, inUse, List.countP_cons, List.countP_nil, isRegister, isEnded]
    by_cases h : k' = (s.obj o).kind
    · subst h; simp; omega
    · have : ¬ (s.obj o).kind = k' := fun hx => h hx.symm
      simp [h, this]
  | retValue o r hx hk =>
    refine hp.mk' _ rfl ?_ (.inr (.inl ⟨_, rfl⟩)) (fun k' => processes_congr rfl (hkind _ _ rfl))
    intro k'
    simp only [upd_ap, hev, inUse, List.countP_cons, List.countP_nil, isRegister, isEnded]
    by_cases h : k' = .value
    · subst h; simp; omega
    · have : ¬ Kind.value = k' := fun hx => h hx.symm
      simp [h, this]

theorem reach_inv {c : Cfg} {s : St} (h : Reach c s) : Inv c s ∧ LInv c s ∧ OInv c s ∧ PInv s := by
  induction h with
  | init => exact ⟨.init c, .init c, .init c, .init⟩
  | step _ he ih =>
    obtain ⟨h1, h2, h3, h4⟩ := ih
    have := exec_step h1 he
    exact ⟨this.inv h1, this.linv h1 h2, this.oinv h1 h2 h3, this.pinv h1 h4⟩

theorem reach_run {c : Cfg} : ∀ {as : List Act} {s s' : St}, Reach c s → run c s as = some s' → Reach c s'
  | [], _, _, h, e => by simp only [run, Option.some.injEq] at e; exact e ▸ h
  | a :: as, s, s', h, e => by
    simp only [run] at e
    split at e
    · rename_i s1 h1
      exact reach_run (.step h h1) e
    · cases e

end Verif.FliCb
