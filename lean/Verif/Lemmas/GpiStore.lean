import Verif.Model.GpiStore
/-!
# The store of unique handles
-/
namespace Verif.Gpi

variable {D : List Impl}

/-- Invariant of the store: its keys are unique, an entry leads to a live object of that name. -/
structure Inv (s : St) : Prop where
  nodup : (s.map.map (·.1)).Nodup
  entry : ∀ f r, (f, r) ∈ s.map → r ∉ s.freed ∧ ∃ o, s.objs[r]? = some o ∧ o.full = f
  freed : ∀ r ∈ s.freed, r < s.objs.length

theorem inv_init : Inv St.init := ⟨by simp [St.init], by simp [St.init], by simp [St.init]⟩

/-- What one step does to objects, deleted objects and map. `q` is the object it stored, if any. -/
inductive Eff (s : St) : St → Option Nat → Prop
  | same {s'} (ho : s'.objs = s.objs) (hf : s'.freed = s.freed) (hm : s'.map = s.map) : Eff s s' none
  | dup {s'} (o : Obj) (r) (ho : s'.objs = s.objs ++ [o]) (hf : s'.freed = s.objs.length :: s.freed)
      (hm : s'.map = s.map) (hr : dictGet s.map o.full = some r) : Eff s s' (some r)
  | new {s'} (o : Obj) (ho : s'.objs = s.objs ++ [o]) (hf : s'.freed = s.freed)
      (hm : s'.map = dictSet s.map o.full s.objs.length) (hr : dictGet s.map o.full = none) :
      Eff s s' (some s.objs.length)

theorem store_eff (s : St) (o : Obj) : Eff s (store s o).1 (some (store s o).2) := by
  unfold store
  dsimp only
  split
  · rename_i old h; exact .dup o old rfl rfl rfl h
  · rename_i h; exact .new o rfl rfl rfl h

theorem store_iters (s : St) (o : Obj) : (store s o).1.iters = s.iters := by
  unfold store; dsimp only; split <;> rfl

theorem Eff.iters {s s' : St} {q} (h : Eff s s' q) (l) : Eff s { s' with iters := l } q := by
  cases h with
  | same a b c => exact .same a b c
  | dup o r a b c d => exact .dup o r a b c d
  | new o a b c d => exact .new o a b c d

theorem Eff.inv {s s' : St} {q} (h : Eff s s' q) (I : Inv s) : Inv s' := by
  cases h with
  | same a b c =>
    exact ⟨by rw [c]; exact I.nodup, by rw [a, b, c]; exact I.entry, by rw [a, b]; exact I.freed⟩
  | dup o r a b c d =>
    refine ⟨by rw [c]; exact I.nodup, ?_, ?_⟩
    · intro f r' h
      rw [c] at h
      obtain ⟨h1, o', h2, h3⟩ := I.entry f r' h
      have : r' < s.objs.length := (List.getElem?_eq_some_iff.mp h2).1
      refine ⟨?_, o', ?_, h3⟩
      · rw [b]; simp only [List.mem_cons, not_or]; exact ⟨by omega, h1⟩
      · rw [a, List.getElem?_append_left this]; exact h2
    · intro r' h
      rw [b] at h; rw [a]
      simp only [List.mem_cons] at h
      simp only [List.length_append, List.length_cons, List.length_nil]
      rcases h with h | h
      · omega
      · have := I.freed r' h; omega
  | new o a b c d =>
    refine ⟨by rw [c]; exact dictSet_nodup I.nodup _ _, ?_, ?_⟩
    · intro f r' h
      rw [c] at h
      have hn := dictSet_nodup I.nodup o.full s.objs.length
      have h' := dictGet_of_mem hn h
      rw [dictGet_set] at h'
      rw [a, b]
      split at h'
      · rename_i e
        cases h'
        refine ⟨fun hc => absurd (I.freed _ hc) (by omega), o, by simp, ?_⟩
        simpa using e
      · obtain ⟨h1, o', h2, h3⟩ := I.entry f r' (dictGet_mem h')
        have : r' < s.objs.length := (List.getElem?_eq_some_iff.mp h2).1
        exact ⟨h1, o', by rw [List.getElem?_append_left this]; exact h2, h3⟩
    · intro r' h
      rw [b] at h; rw [a]
      have := I.freed r' h
      simp; omega

/-- A stored result is in the map. -/
theorem Eff.mem {s s' : St} {r} (h : Eff s s' (some r)) : ∃ f, (f, r) ∈ s'.map := by
  cases h with
  | dup o r a b c d => exact ⟨o.full, by rw [c]; exact dictGet_mem d⟩
  | new o a b c d => exact ⟨o.full, by rw [c]; exact dictGet_mem (dictGet_set_same _ _ _)⟩

theorem Eff.map_keep {s s' : St} {q} (h : Eff s s' q) {f r} (hm : (f, r) ∈ s.map) (I : Inv s) : (f, r) ∈ s'.map := by
  cases h with
  | same a b c => rw [c]; exact hm
  | dup o r a b c d => rw [c]; exact hm
  | new o a b c d =>
    rw [c]
    have : dictGet s.map f = some r := dictGet_of_mem I.nodup hm
    refine dictGet_mem ?_
    rw [dictGet_set]
    split
    · rename_i e; subst e; rw [d] at this; cases this
    · exact this

/-- A live object stays the same. -/
theorem Eff.get {s s' : St} {q} (h : Eff s s' q) {r o} (hg : s.get r = some o) : s'.get r = some o := by
  unfold St.get at hg ⊢
  split at hg
  · cases hg
  · rename_i hn
    have hl : r < s.objs.length := (List.getElem?_eq_some_iff.mp hg).1
    cases h with
    | same a b c => rw [a, b, if_neg hn]; exact hg
    | dup o r a b c d =>
      rw [a, b, if_neg (by simp only [List.mem_cons, not_or]; exact ⟨by omega, hn⟩), List.getElem?_append_left hl]; exact hg
    | new o a b c d => rw [a, b, if_neg hn, List.getElem?_append_left hl]; exact hg

/-- How a call uses the store: everything but NATIVE lookups and `finalize`. -/
def Op.stored : Op → Bool
  | .byName _ _ .native => false
  | .finalize => false
  | _ => true

theorem storeOpt_eff (s : St) (x : Option Obj) : Eff s (storeOpt s x).1 (storeOpt s x).2 := by
  cases x with
  | none => exact .same rfl rfl rfl
  | some o => exact store_eff s o

/-- The handle in a result. -/
def Res.hdl : Res → Option Nat
  | .handle r => some r
  | _ => Option.none

theorem toRes_hdl (x : St × Option Nat) : (toRes x).2.hdl = x.2 := by
  unfold toRes; cases x.2 <;> rfl

theorem newIter_eff {s s' : St} {k p it r} (h : newIter s k p it = some (s', r)) : Eff s s' r.hdl := by
  cases it with
  | null => cases h; exact .same rfl rfl rfl
  | undef => cases h
  | items l => cases h; exact .same rfl rfl rfl

theorem exec_eff {s s' : St} {op r} (h : exec D s op = some (s', r)) (hs : op.stored = true) : Eff s s' r.hdl := by
  cases op with
  | root n =>
    simp only [exec, Option.some.injEq] at h
    have := storeOpt_eff s ((List.range D.length).findSome? fun k => (D[k]?).bind fun I => I.root n)
    rw [← toRes_hdl, h] at this
    have h1 : (storeOpt s ((List.range D.length).findSome? fun k => (D[k]?).bind fun I => I.root n)).1 = s' := by
      rw [show s' = (s', r).1 from rfl, ← h]; rfl
    rw [h1] at this; exact this
  | byName p n d =>
    simp only [exec] at h
    cases hp : s.get p with
    | none => rw [hp] at h; cases h
    | some po =>
      rw [hp] at h
      cases d with
      | native => cases hs
      | auto =>
        simp only [Option.some.injEq] at h
        have := storeOpt_eff s (childByName D po n none)
        rw [← toRes_hdl, h] at this
        have h1 : (storeOpt s (childByName D po n none)).1 = s' := by
          rw [show s' = (s', r).1 from rfl, ← h]; rfl
        rw [h1] at this; exact this
  | byIndex p i =>
    simp only [exec] at h
    cases hp : s.get p with
    | none => rw [hp] at h; cases h
    | some po =>
      rw [hp] at h
      dsimp only at h
      split at h
      · simp only [Option.some.injEq] at h
        have := storeOpt_eff s ((D[po.impl]?).bind fun I => I.byIndex i po)
        rw [← toRes_hdl, h] at this
        have h1 : (storeOpt s ((D[po.impl]?).bind fun I => I.byIndex i po)).1 = s' := by
          rw [show s' = (s', r).1 from rfl, ← h]; rfl
        rw [h1] at this; exact this
      · cases h; exact .same rfl rfl rfl
  | iterate p sel =>
    simp only [exec] at h
    split at h
    · split at h
      · cases h; exact .same rfl rfl rfl
      · split at h
        · exact newIter_eff h
        · cases h; exact .same rfl rfl rfl
    · split at h
      · cases h
      · split at h
        · exact newIter_eff h
        · cases h
  | next k =>
    simp only [exec] at h
    split at h
    · split at h
      · cases h
      · cases h; exact .same rfl rfl rfl
      · cases h
        exact Eff.iters (store_eff _ _) _
    · cases h
  | finalize => cases hs

/-- NATIVE lookups add an object and change nothing else. -/
theorem exec_native {s s' : St} {p n r} (h : exec D s (.byName p n .native) = some (s', r)) :
    (s' = s ∧ r = .none) ∨ ∃ o, s' = { s with objs := s.objs ++ [o] } ∧ r = .handle s.objs.length := by
  simp only [exec] at h
  cases hp : s.get p with
  | none => rw [hp] at h; cases h
  | some po =>
    rw [hp] at h
    dsimp only at h
    split at h
    · cases h; exact Or.inr ⟨_, rfl, rfl⟩
    · cases h; exact Or.inl ⟨rfl, rfl⟩

theorem exec_inv {s s' : St} {op r} (h : exec D s op = some (s', r)) (I : Inv s) : Inv s' := by
  by_cases hs : op.stored = true
  · exact (exec_eff h hs).inv I
  · cases op with
    | byName p n d =>
      cases d with
      | auto => exact absurd rfl hs
      | native =>
        rcases exec_native h with ⟨rfl, _⟩ | ⟨o, rfl, _⟩
        · exact I
        · refine ⟨I.nodup, ?_, ?_⟩
          · intro f r' hm
            obtain ⟨h1, o', h2, h3⟩ := I.entry f r' hm
            have : r' < s.objs.length := (List.getElem?_eq_some_iff.mp h2).1
            exact ⟨h1, o', by rw [List.getElem?_append_left this]; exact h2, h3⟩
          · intro r' hr'
            have := I.freed r' hr'
            simp; omega
    | finalize =>
      simp only [exec, Option.some.injEq, Prod.mk.injEq] at h
      obtain ⟨rfl, _⟩ := h
      refine ⟨by simp, by simp, ?_⟩
      intro r' hr'
      simp only [List.mem_append, List.mem_map] at hr'
      rcases hr' with ⟨⟨f, r''⟩, hm, rfl⟩ | hr'
      · obtain ⟨_, o', h2, _⟩ := I.entry f r'' hm
        exact (List.getElem?_eq_some_iff.mp h2).1
      · exact I.freed r' hr'
    | root => exact absurd rfl hs
    | byIndex => exact absurd rfl hs
    | iterate => exact absurd rfl hs
    | next => exact absurd rfl hs

theorem exec_get {s s' : St} {op r} (h : exec D s op = some (s', r)) (hf : op ≠ .finalize) {q o}
    (hg : s.get q = some o) : s'.get q = some o := by
  by_cases hs : op.stored = true
  · exact (exec_eff h hs).get hg
  · cases op with
    | byName p n d =>
      cases d with
      | auto => exact absurd rfl hs
      | native =>
        rcases exec_native h with ⟨rfl, _⟩ | ⟨o', rfl, _⟩
        · exact hg
        · unfold St.get at hg ⊢
          split at hg
          · cases hg
          · rename_i hn
            have hl : q < s.objs.length := (List.getElem?_eq_some_iff.mp hg).1
            rw [if_neg hn]
            dsimp only
            rw [List.getElem?_append_left hl]; exact hg
    | finalize => exact absurd rfl hf
    | root => exact absurd rfl hs
    | byIndex => exact absurd rfl hs
    | iterate => exact absurd rfl hs
    | next => exact absurd rfl hs

theorem exec_map {s s' : St} {op r} (h : exec D s op = some (s', r)) (I : Inv s) (hf : op ≠ .finalize) {f q}
    (hm : (f, q) ∈ s.map) : (f, q) ∈ s'.map := by
  by_cases hs : op.stored = true
  · exact (exec_eff h hs).map_keep hm I
  · cases op with
    | byName p n d =>
      cases d with
      | auto => exact absurd rfl hs
      | native => rcases exec_native h with ⟨rfl, _⟩ | ⟨o', rfl, _⟩ <;> exact hm
    | finalize => exact absurd rfl hf
    | root => exact absurd rfl hs
    | byIndex => exact absurd rfl hs
    | iterate => exact absurd rfl hs
    | next => exact absurd rfl hs

theorem run_inv {s s' : St} {ops outs} (h : run D s ops = some (s', outs)) (I : Inv s) : Inv s' := by
  induction ops generalizing s outs with
  | nil => cases h; exact I
  | cons op ops ih =>
    simp only [run] at h
    split at h
    · cases h
    · rename_i h1
      split at h
      · cases h
      · rename_i h2; cases h; exact ih h2 (exec_inv h1 I)

theorem run_get {s s' : St} {ops outs} (h : run D s ops = some (s', outs)) (hf : .finalize ∉ ops) {q o}
    (hg : s.get q = some o) : s'.get q = some o := by
  induction ops generalizing s outs with
  | nil => cases h; exact hg
  | cons op ops ih =>
    simp only [List.mem_cons, not_or] at hf
    simp only [run] at h
    split at h
    · cases h
    · rename_i h1
      split at h
      · cases h
      · rename_i h2; cases h; exact ih h2 hf.2 (exec_get h1 (Ne.symm hf.1) hg)

theorem run_map {s s' : St} {ops outs} (h : run D s ops = some (s', outs)) (I : Inv s) (hf : .finalize ∉ ops) {f q}
    (hm : (f, q) ∈ s.map) : (f, q) ∈ s'.map := by
  induction ops generalizing s outs with
  | nil => cases h; exact hm
  | cons op ops ih =>
    simp only [List.mem_cons, not_or] at hf
    simp only [run] at h
    split at h
    · cases h
    · rename_i h1
      split at h
      · cases h
      · rename_i h2; cases h; exact ih h2 (exec_inv h1 I) hf.2 (exec_map h1 I (Ne.symm hf.1) hm)

/-- Handles from the store stay in the map. -/
theorem run_stored {s s' : St} {ops outs} (h : run D s ops = some (s', outs)) (I : Inv s) (hf : .finalize ∉ ops)
    {op r} (hm : (op, Res.handle r) ∈ outs) (hs : op.stored = true) : ∃ f, (f, r) ∈ s'.map := by
  induction ops generalizing s outs with
  | nil => cases h; cases hm
  | cons op' ops ih =>
    simp only [List.mem_cons, not_or] at hf
    simp only [run] at h
    split at h
    · cases h
    · rename_i h1
      split at h
      · cases h
      · rename_i h2
        cases h
        simp only [List.mem_cons] at hm
        rcases hm with hm | hm
        · cases hm
          obtain ⟨f, hf'⟩ := (exec_eff h1 hs).mem
          exact ⟨f, run_map h2 (exec_inv h1 I) hf.2 hf'⟩
        · exact ih h2 (exec_inv h1 I) hf.2 hm

theorem Inv.get {s : St} (I : Inv s) {f r} (h : (f, r) ∈ s.map) : ∃ o, s.get r = some o ∧ o.full = f := by
  obtain ⟨h1, o, h2, h3⟩ := I.entry f r h
  exact ⟨o, by unfold St.get; rw [if_neg h1]; exact h2, h3⟩

theorem run_ops {s s' : St} {ops outs} (h : run D s ops = some (s', outs)) : outs.map (·.1) = ops := by
  induction ops generalizing s outs with
  | nil => cases h; rfl
  | cons op ops ih =>
    simp only [run] at h
    split at h
    · cases h
    · split at h
      · cases h
      · rename_i h2
        cases h
        rw [List.map_cons, ih h2]

theorem exec_valid {s s' : St} {op r} (h : exec D s op = some (s', .handle r)) (I : Inv s) : (s'.get r).isSome := by
  have I' := exec_inv h I
  by_cases hs : op.stored = true
  · obtain ⟨f, hf⟩ := (exec_eff h hs).mem
    obtain ⟨o, ho, _⟩ := I'.get hf
    rw [ho]; rfl
  · cases op with
    | byName p n d =>
      cases d with
      | auto => exact absurd rfl hs
      | native =>
        rcases exec_native h with ⟨_, h2⟩ | ⟨o, rfl, h2⟩
        · cases h2
        · cases h2
          unfold St.get
          rw [if_neg]
          · simp
          · intro hm
            exact absurd (I.freed _ hm) (Nat.lt_irrefl _)
    | finalize => simp only [exec] at h; cases h
    | _ => exact absurd rfl hs

theorem run_valid {s s' : St} {ops outs} (h : run D s ops = some (s', outs)) (I : Inv s) (hf : .finalize ∉ ops)
    {op r} (hm : (op, Res.handle r) ∈ outs) : (s'.get r).isSome := by
  induction ops generalizing s outs with
  | nil => cases h; cases hm
  | cons op' ops ih =>
    simp only [List.mem_cons, not_or] at hf
    simp only [run] at h
    split at h
    · cases h
    · rename_i s1 r1 h1
      split at h
      · cases h
      · rename_i s2 outs' h2
        cases h
        have I1 := exec_inv h1 I
        rcases List.mem_cons.mp hm with e | e
        · cases e
          have hv := exec_valid h1 I
          cases hg : s1.get r with
          | none => rw [hg] at hv; cases hv
          | some o => rw [run_get h2 hf.2 hg]; rfl
        · exact ih h2 I1 hf.2 e

end Verif.Gpi
