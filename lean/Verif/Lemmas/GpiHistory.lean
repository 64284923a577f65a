import Verif.Lemmas.GpiDirect
/-!
# Histories of lookups through the VPI
-/
namespace Verif.Gpi

variable {c : Flavor} {V : Vpi}

/-- An object of a path. -/
def Of (c : Flavor) (V : Vpi) (q : Path) (o : Obj) : Prop := q.Ok ∧ direct c V q = some o ∧ o.full = q.text

theorem Of.uniq {q q' : Path} {o o' : Obj} (h : Of c V q o) (h' : Of c V q' o') (e : o.full = o'.full) :
    q = q' ∧ o = o' := by
  have : q = q' := Path.text_inj h.1 h'.1 (by rw [← h.2.2, ← h'.2.2, e])
  subst this
  exact ⟨rfl, by have := h.2.1; rw [h'.2.1] at this; exact (Option.some.inj this).symm⟩

/-- A handle of a path. -/
def At (c : Flavor) (V : Vpi) (s : St) (r : Nat) (q : Path) : Prop := ∃ o, s.get r = some o ∧ Of c V q o

theorem At.uniq {s : St} {r q q'} (h : At c V s r q) (h' : At c V s r q') : q = q' := by
  obtain ⟨o, h1, h2⟩ := h
  obtain ⟨o', h1', h2'⟩ := h'
  rw [h1] at h1'; cases h1'
  exact (h2.uniq h2' rfl).1

structure J (c : Flavor) (V : Vpi) (s : St) : Prop where
  inv : Inv s
  objs : ∀ o ∈ s.objs, ∃ q, Of c V q o
  live : ∀ r o, s.get r = some o → (o.full, r) ∈ s.map
  iters : ∀ it, some it ∈ s.iters → it.impl = 0 ∧ ∀ o', Item.native o' ∈ it.rest → o'.full ≠ unknownName → ∃ q, Of c V q o'

theorem get_mem {s : St} {r o} (h : s.get r = some o) : o ∈ s.objs := by
  unfold St.get at h
  split at h
  · cases h
  · exact List.mem_of_getElem? h

theorem J.at {s : St} (j : J c V s) {r o} (h : s.get r = some o) : ∃ q, At c V s r q ∧ Of c V q o := by
  obtain ⟨q, hq⟩ := j.objs o (get_mem h)
  exact ⟨q, ⟨o, h, hq⟩, hq⟩

theorem St.get_iters (s : St) (l) (r : Nat) : ({ s with iters := l } : St).get r = s.get r := rfl

/-- Two live handles of the same path are the same. -/
theorem J.inj {s : St} (j : J c V s) {r r' q} (h : At c V s r q) (h' : At c V s r' q) : r = r' := by
  obtain ⟨o, h1, h2⟩ := h
  obtain ⟨o', h1', h2'⟩ := h'
  have m := j.live r o h1
  have m' := j.live r' o' h1'
  rw [h2.2.2] at m; rw [h2'.2.2] at m'
  have a := dictGet_of_mem j.inv.nodup m
  rw [dictGet_of_mem j.inv.nodup m'] at a
  exact (Option.some.inj a).symm

/-- Storing an object of a path gives the handle of the path. -/
theorem store_at {s : St} (j : J c V s) {o q} (ho : Of c V q o) :
    At c V (store s o).1 (store s o).2 q ∧ J c V (store s o).1 := by
  have E := store_eff s o
  have I' := E.inv j.inv
  obtain ⟨f, hf⟩ := E.mem
  have hit := store_iters s o
  generalize hs : (store s o).1 = s' at *
  generalize hr : (store s o).2 = r at *
  have hobjs : s'.objs = s.objs ++ [o] := by
    rw [← hs]; unfold store; dsimp only; split <;> rfl
  have ht : ∀ x ∈ s'.objs, ∃ q, Of c V q x := by
    intro x hx
    rw [hobjs] at hx
    simp only [List.mem_append, List.mem_singleton] at hx
    rcases hx with hx | rfl
    · exact j.objs x hx
    · exact ⟨q, ho⟩
  have hlive : ∀ r o, s'.get r = some o → (o.full, r) ∈ s'.map := by
    intro r' o' hg
    by_cases hl : r' < s.objs.length
    · have : s.get r' = some o' := by
        unfold St.get at hg ⊢
        rw [hobjs, List.getElem?_append_left hl] at hg
        split at hg
        · cases hg
        · rename_i hn
          rw [if_neg]; exact hg
          intro hc
          apply hn
          cases E with
          | dup o r a b c d => rw [b]; exact List.mem_cons_of_mem _ hc
          | new o a b c d => rw [b]; exact hc
      exact E.map_keep (j.live r' o' this) j.inv
    · have e1 : r' = s.objs.length ∧ o' = o := by
        have : s'.objs[r']? = some o' := by
          unfold St.get at hg
          split at hg
          · cases hg
          · exact hg
        rw [hobjs, List.getElem?_append_right (by omega)] at this
        have h2 : r' - s.objs.length = 0 := by
          have := (List.getElem?_eq_some_iff.mp this).1
          simp at this; omega
        rw [h2] at this
        simp at this
        exact ⟨by omega, this.symm⟩
      obtain ⟨rfl, rfl⟩ := e1
      unfold store at hs hr
      dsimp only at hs hr
      split at hs
      · subst hs
        unfold St.get at hg
        rw [if_pos (by simp)] at hg
        cases hg
      · subst hs
        exact dictGet_mem (dictGet_set_same _ _ _)
  refine ⟨?_, ⟨I', ht, hlive, by rw [hit]; exact j.iters⟩⟩
  have hfull : (o.full, r) ∈ s'.map := by
    unfold store at hs hr
    dsimp only at hs hr
    split at hs
    · rename_i old hold
      simp only [hold] at hr
      subst hs; subst hr
      exact dictGet_mem hold
    · rename_i hold
      simp only [hold] at hr
      subst hs; subst hr
      exact dictGet_mem (dictGet_set_same _ _ _)
  obtain ⟨o', h1, h2⟩ := I'.get hfull
  obtain ⟨q', hq'⟩ := ht o' (get_mem h1)
  have := (hq'.uniq ho h2)
  exact ⟨o', h1, by rw [← this.1]; exact hq'⟩

/-- `CHECK_AND_STORE`. -/
theorem storeOpt_at {s : St} (j : J c V s) {x : Option Obj} {q : Path} (hx : ∀ o, x = some o → Of c V q o)
    (hd : x = none → direct c V q = none) :
    J c V (toRes (storeOpt s x)).1 ∧
      ((∃ r, (toRes (storeOpt s x)).2 = .handle r ∧ At c V (toRes (storeOpt s x)).1 r q) ∨
        (toRes (storeOpt s x)).2 = .none ∧ direct c V q = none) := by
  cases x with
  | none => exact ⟨j, Or.inr ⟨rfl, hd rfl⟩⟩
  | some o =>
    obtain ⟨h1, h2⟩ := store_at j (hx o rfl)
    exact ⟨h2, Or.inl ⟨_, rfl, h1⟩⟩

/-- One implementation. -/
abbrev one (c : Flavor) (V : Vpi) : List Impl := [vpiImpl c V 0]

theorem childByName_one {p : Obj} (hp : p.impl = 0) (n : Text) : childByName (one c V) p n none = vpiByName c V 0 n p := by
  unfold childByName searchOrder
  rw [hp]
  simp [List.range, List.range.loop, vpiImpl]

theorem childByName_skip {p : Obj} (hp : p.impl = 0) (n : Text) : childByName (one c V) p n (some 0) = none := by
  unfold childByName searchOrder
  rw [hp]
  simp [List.range, List.range.loop]

theorem childFromHandle_skip (p : Obj) (raw : H) : childFromHandle (one c V) p raw 0 = none := by
  unfold childFromHandle
  simp [List.range, List.range.loop]

theorem root_one (n : Option Text) :
    ((List.range (one c V).length).findSome? fun k => ((one c V)[k]?).bind fun I => I.root n) = vpiRoot V 0 n := by
  simp [List.range, List.range.loop, vpiImpl]

theorem Of.impl {q o} (h : Of c V q o) : o.impl = 0 := (direct_type h.2.1).2

/-- `gpi_next` gives one of the items. -/
theorem nextLoop_one {p : Option Obj} (hp : ∀ o, p = some o → o.impl = 0) {l rest o}
    (h : nextLoop (one c V) p 0 l = some (some (rest, o))) :
    Item.native o ∈ l ∧ ∀ x ∈ rest, x ∈ l := by
  induction l with
  | nil => cases h
  | cons x l ih =>
    cases x with
    | native o' =>
      simp only [nextLoop, Option.some.injEq, Prod.mk.injEq] at h
      obtain ⟨rfl, rfl⟩ := h
      exact ⟨by simp, fun x hx => List.mem_cons_of_mem _ hx⟩
    | nativeNoName =>
      simp only [nextLoop] at h
      obtain ⟨h1, h2⟩ := ih h
      exact ⟨List.mem_cons_of_mem _ h1, fun x hx => List.mem_cons_of_mem _ (h2 x hx)⟩
    | notNative n =>
      simp only [nextLoop] at h
      cases p with
      | none => cases h
      | some po =>
        simp only [childByName_skip (hp po rfl)] at h
        obtain ⟨h1, h2⟩ := ih h
        exact ⟨List.mem_cons_of_mem _ h1, fun x hx => List.mem_cons_of_mem _ (h2 x hx)⟩
    | notNativeNoName raw =>
      simp only [nextLoop] at h
      cases p with
      | none => cases h
      | some po =>
        simp only [childFromHandle_skip] at h
        obtain ⟨h1, h2⟩ := ih h
        exact ⟨List.mem_cons_of_mem _ h1, fun x hx => List.mem_cons_of_mem _ (h2 x hx)⟩
    | raises => cases h

theorem J.newIter {s s' : St} (j : J c V s) {p it r} (h : newIter s 0 p it = some (s', r))
    (hit : ∀ l, it = .items l → ∀ o', Item.native o' ∈ l → o'.full ≠ unknownName → ∃ q, Of c V q o') :
    J c V s' ∧ ((∃ k, r = .iter k) ∨ r = .none) := by
  cases it with
  | null => cases h; exact ⟨j, Or.inr rfl⟩
  | undef => cases h
  | items l =>
    cases h
    refine ⟨⟨⟨j.inv.nodup, j.inv.entry, j.inv.freed⟩, j.objs, j.live, ?_⟩, Or.inl ⟨_, rfl⟩⟩
    intro it' hm
    simp only [List.mem_append, List.mem_singleton, Option.some.injEq] at hm
    rcases hm with hm | rfl
    · exact j.iters it' hm
    · exact ⟨rfl, hit l rfl⟩

theorem rootItems_of_vpiRoot {n o} (h : vpiRoot V 0 n = some o) (hn : ∀ h ∈ V.modules.getD [], V.fullName h ≠ none) :
    Item.native o ∈ rootItems V 0 := by
  unfold vpiRoot at h
  dsimp only at h
  split at h
  · cases h
  · rename_i x hx
    cases h
    have hm := List.mem_of_find?_eq_some hx
    have hp := List.find?_some hx
    simp only [Bool.and_eq_true] at hp
    unfold rootItems
    rw [List.mem_filterMap]
    refine ⟨x, List.mem_filter.mpr ⟨hm, hp.1⟩, ?_⟩
    rcases e : V.fullName x with _ | f
    · exact absurd e (hn x hm)
    · simp

theorem J.iterNone {s : St} (j : J c V s) (k : Nat) (it : Option IterS)
    (h : ∀ it', it = some it' → it'.impl = 0 ∧ ∀ o', Item.native o' ∈ it'.rest → o'.full ≠ unknownName → ∃ q, Of c V q o') :
    J c V { s with iters := s.iters.set k it } := by
  refine ⟨⟨j.inv.nodup, j.inv.entry, j.inv.freed⟩, j.objs, j.live, ?_⟩
  intro it' hm
  rcases List.mem_or_eq_of_mem_set hm with hm | hm
  · exact j.iters it' hm
  · exact h it' hm.symm

theorem vpiRoot_none (h : vpiRoot V 0 none = none) : ∀ h ∈ V.modules.getD [], isModule V h = true →
    ((V.fullName h).getD []).head? = some 92 := by
  unfold vpiRoot at h
  dsimp only at h
  split at h
  · rename_i hx
    intro x hm hi
    have := List.find?_eq_none.mp hx x hm
    simpa [hi] using this
  · cases h

/-- The step of a history. `path` is a function that agrees with the final state. -/
theorem exec_right (C : Consistent c V) {s s' : St} (j : J c V s) {op r} (h : exec (one c V) s op = some (s', r))
    (hf : op ≠ .finalize) (ha : ∀ p n d, op = .byName p n d → d = .auto ∧ Simple n)
    (hna : ∀ p n d o, op = .byName p n d → s.get p = some o → o.type ≠ .genArray)
    (hsc : ∀ p o, op = .iterate (some p) .objects → s.get p = some o → o.type.scope = true)
    (hu : ∀ o ∈ s'.objs, o.full ≠ unknownName) :
    J c V s' ∧ (∀ q, r = .handle q → ∃ p, At c V s' q p) ∧
      ∀ path : Nat → Path, (∀ q p, At c V s' q p → path q = p) → Right c V path op r := by
  cases op with
  | root n =>
    simp only [exec, root_one, Option.some.injEq] at h
    rcases hx : vpiRoot V 0 n with _ | o
    · rw [hx] at h; cases h
      refine ⟨j, (by intro q hq; cases hq), ?_⟩
      intro path _
      cases n with
      | none => exact Or.inr (vpiRoot_none hx)
      | some n => exact hx
    · have hr := C.roots o (rootItems_of_vpiRoot hx C.named)
      have ho : Of c V (.root o.full) o := ⟨hr.1, hr.2, rfl⟩
      obtain ⟨h1, h2⟩ := store_at j ho
      rw [hx] at h; cases h
      refine ⟨h2, (by intro q hq; cases hq; exact ⟨_, h1⟩), ?_⟩
      intro path hp
      cases n with
      | none => exact ⟨_, hp _ _ h1⟩
      | some n =>
        have := hp _ _ h1
        rw [(vpiRoot_eq hx).2.2.2 n rfl] at this
        exact this
  | byName p n d =>
    obtain ⟨rfl, hn⟩ := ha p n d rfl
    simp only [exec] at h
    cases hp : s.get p with
    | none => rw [hp] at h; cases h
    | some po =>
      rw [hp] at h
      obtain ⟨q, hq, hpo⟩ := j.at hp
      simp only [childByName_one hpo.impl, Option.some.injEq] at h
      have hng := hna p n .auto po rfl hp
      have hu' : ∀ o, vpiByName c V 0 n po = some o → o.full ≠ unknownName := by
        intro o ho
        refine hu o ?_
        rw [show s' = (s', r).1 from rfl, ← h, ho]
        simp only [toRes, storeOpt, store]
        split <;> simp
      have key := storeOpt_at j (x := vpiByName c V 0 n po) (q := .child q n)
        (fun o ho => ⟨⟨hpo.1, hn⟩, by rw [direct, hpo.2.1, Option.bind_some, if_neg hng]; exact ho,
          full_child hpo.2.1 hpo.2.2 ho (hu' o ho)⟩)
        (fun ho => by rw [direct, hpo.2.1, Option.bind_some, if_neg hng]; exact ho)
      have E : Eff s s' r.hdl := by
        have := storeOpt_eff s (vpiByName c V 0 n po)
        rw [← toRes_hdl, h] at this
        have h1 : (storeOpt s (vpiByName c V 0 n po)).1 = s' := by rw [show s' = (s', r).1 from rfl, ← h]; rfl
        rw [h1] at this; exact this
      rw [h] at key
      refine ⟨key.1, ?_, ?_⟩
      · rintro q' rfl
        rcases key.2 with ⟨r', e, ha⟩ | ⟨e, _⟩
        · cases e; exact ⟨_, ha⟩
        · cases e
      · intro path hpath
        have e1 : path p = q := hpath p q ⟨po, E.get hp, hpo⟩
        rcases key.2 with ⟨r', e, ha⟩ | ⟨e, ha⟩
        · simp only at e ha; subst e
          show path r' = .child (path p) n
          rw [e1]; exact hpath _ _ ha
        · simp only at e; subst e
          show direct c V (.child (path p) n) = none
          rw [e1]; exact ha
  | byIndex p i =>
    simp only [exec] at h
    cases hp : s.get p with
    | none => rw [hp] at h; cases h
    | some po =>
      rw [hp] at h
      obtain ⟨q, hq, hpo⟩ := j.at hp
      dsimp only at h
      split at h
      · rename_i hi
        have hb : ((one c V)[po.impl]?.bind fun I => I.byIndex i po) = vpiByIndex c V 0 i po := by
          rw [hpo.impl]; simp [vpiImpl]
        simp only [hb, Option.some.injEq] at h
        have hu' : ∀ o, vpiByIndex c V 0 i po = some o → o.full ≠ unknownName := by
          intro o ho
          refine hu o ?_
          rw [show s' = (s', r).1 from rfl, ← h, ho]
          simp only [toRes, storeOpt, store]
          split <;> simp
        have key := storeOpt_at j (x := vpiByIndex c V 0 i po) (q := .elem q i)
          (fun o ho => ⟨⟨hpo.1, hi⟩, by rw [direct, hpo.2.1]; exact ho, full_elem hpo.2.2 hi ho (hu' o ho)⟩)
          (fun ho => by rw [direct, hpo.2.1]; exact ho)
        have E : Eff s s' r.hdl := by
          have := storeOpt_eff s (vpiByIndex c V 0 i po)
          rw [← toRes_hdl, h] at this
          have h1 : (storeOpt s (vpiByIndex c V 0 i po)).1 = s' := by rw [show s' = (s', r).1 from rfl, ← h]; rfl
          rw [h1] at this; exact this
        rw [h] at key
        refine ⟨key.1, ?_, ?_⟩
        · rintro q' rfl
          rcases key.2 with ⟨r', e, ha⟩ | ⟨e, _⟩
          · cases e; exact ⟨_, ha⟩
          · cases e
        · intro path hpath
          have e1 : path p = q := hpath p q ⟨po, E.get hp, hpo⟩
          rcases key.2 with ⟨r', e, ha⟩ | ⟨e, ha⟩
          · simp only at e ha; subst e
            show path r' = .elem (path p) i
            rw [e1]; exact hpath _ _ ha
          · simp only at e; subst e
            show direct c V (.elem (path p) i) = none
            rw [e1]; exact ha
      · rename_i hi
        cases h
        exact ⟨j, (by intro q hq; cases hq), fun path _ => by simpa [Right] using hi⟩
  | iterate p sel =>
    have fin : J c V s' ∧ ((∃ k, r = .iter k) ∨ r = .none) := by
      simp only [exec] at h
      split at h
      · rename_i hsel
        split at h
        · cases h; exact ⟨j, Or.inr rfl⟩
        · have hfi : firstIter (one c V) sel = some (0, vpiItems c V 0 none sel) := by
            rcases hsel with rfl | rfl <;>
              simp [firstIter, List.range, List.range.loop, vpiImpl, vpiItems]
          rw [hfi] at h
          refine j.newIter h ?_
          intro l hl o' ho' hu'
          rcases hsel with rfl | rfl
          · cases hl
            obtain ⟨n, hn, hd⟩ := C.packages o' ho'
            exact ⟨.package n, hn, hd, (direct_package hd).1⟩
          · cases hl
            have hr := C.roots o' ho'
            exact ⟨.root o'.full, hr.1, hr.2, rfl⟩
      · rename_i hsel
        split at h
        · cases h
        · rename_i po hpo
          rw [Option.bind_eq_some_iff] at hpo
          obtain ⟨p', rfl, hp⟩ := hpo
          obtain ⟨q, hq, hof⟩ := j.at hp
          have hD : (one c V)[po.impl]? = some (vpiImpl c V 0) := by rw [hof.impl]; rfl
          rw [hD] at h
          dsimp only at h
          rw [hof.impl] at h
          refine j.newIter h ?_
          intro l hl o' ho' hu'
          cases sel with
          | objects =>
            exact C.objects q po l hof.1 hof.2.1 hof.2.2 (hsc p' po rfl hp) hl o' ho' hu'
          | drivers => cases hl
          | loads => cases hl
          | packages => exact absurd (Or.inl rfl) hsel
          | roots => exact absurd (Or.inr rfl) hsel
    refine ⟨fin.1, ?_, ?_⟩
    · rintro q rfl
      rcases fin.2 with ⟨k, e⟩ | e <;> cases e
    · intro path _
      rcases fin.2 with ⟨k, rfl⟩ | rfl <;> trivial
  | next k =>
    simp only [exec] at h
    split at h
    · rename_i it hit
      have hm := j.iters it (List.mem_of_getElem? hit)
      have hpi : ∀ o, it.parent.bind s.get = some o → o.impl = 0 := by
        intro o ho
        rw [Option.bind_eq_some_iff] at ho
        obtain ⟨p, _, hp⟩ := ho
        obtain ⟨q, _, hof⟩ := j.at hp
        exact hof.impl
      split at h
      · cases h
      · cases h
        exact ⟨j.iterNone k none (by intro it' e; cases e), (by intro q hq; cases hq), fun path _ => trivial⟩
      · rename_i rest o hx
        cases h
        rw [hm.1] at hx
        obtain ⟨h1, h2⟩ := nextLoop_one hpi hx
        have huo : o.full ≠ unknownName := hu o (by
          simp only [store]; split <;> simp)
        obtain ⟨q, hq⟩ := hm.2 o h1 huo
        obtain ⟨hat, hj⟩ := store_at j hq
        refine ⟨hj.iterNone k _ ?_, ?_, ?_⟩
        · intro it' e; cases e
          exact ⟨hm.1, fun o' ho' => hm.2 o' (h2 _ ho')⟩
        · rintro q' e; cases e
          exact ⟨q, hat⟩
        · intro path hp
          show (path _).Ok
          rw [hp _ q hat]; exact hq.1
    · cases h
  | finalize => exact absurd rfl hf

theorem run_objs {D : List Impl} {s s' : St} {ops outs} (h : run D s ops = some (s', outs)) : ∀ o ∈ s.objs, o ∈ s'.objs := by
  have ex : ∀ {s s' : St} {op r}, exec D s op = some (s', r) → ∀ o ∈ s.objs, o ∈ s'.objs := by
    intro s s' op r h o ho
    by_cases hs : op.stored = true
    · have E := exec_eff h hs
      generalize r.hdl = x at E
      cases E with
      | same a b c => rw [a]; exact ho
      | dup x r a b c d => rw [a]; simp [ho]
      | new x a b c d => rw [a]; simp [ho]
    · cases op with
      | byName p n d =>
        cases d with
        | auto => exact absurd rfl hs
        | native => rcases exec_native h with ⟨rfl, _⟩ | ⟨o', rfl, _⟩ <;> simp [ho]
      | finalize =>
        simp only [exec, Option.some.injEq, Prod.mk.injEq] at h
        obtain ⟨rfl, _⟩ := h
        exact ho
      | root => exact absurd rfl hs
      | byIndex => exact absurd rfl hs
      | iterate => exact absurd rfl hs
      | next => exact absurd rfl hs
  induction ops generalizing s outs with
  | nil => cases h; exact fun o ho => ho
  | cons op ops ih =>
    simp only [run] at h
    split at h
    · cases h
    · rename_i h1
      split at h
      · cases h
      · rename_i h2; cases h; exact fun o ho => ih h2 o (ex h1 o ho)

theorem run_right (C : Consistent c V) {s s' : St} (j : J c V s) {ops outs}
    (h : run (one c V) s ops = some (s', outs)) (P : Plain s' ops) (hu : ∀ o ∈ s'.objs, o.full ≠ unknownName) :
    J c V s' ∧ (∀ op q, (op, Res.handle q) ∈ outs → ∃ p, At c V s' q p) ∧
      ∀ path : Nat → Path, (∀ q p, At c V s' q p → path q = p) → ∀ op r, (op, r) ∈ outs → Right c V path op r := by
  induction ops generalizing s outs with
  | nil => cases h; exact ⟨j, (by intro _ _ h; cases h), (by intro _ _ _ _ h; cases h)⟩
  | cons op ops ih =>
    simp only [run] at h
    split at h
    · cases h
    · rename_i s1 r1 h1
      split at h
      · cases h
      · rename_i s2 outs' h2
        cases h
        have hlive : op ≠ .finalize ∧ .finalize ∉ ops := by
          have := P.live
          simp only [List.mem_cons, not_or] at this
          exact ⟨Ne.symm this.1, this.2⟩
        have hget : ∀ p o, s1.get p = some o → s'.get p = some o := fun p o => run_get h2 hlive.2
        obtain ⟨j1, hh, hr⟩ := exec_right C j h1 hlive.1
          (fun p n d e => P.auto p n d (by rw [e]; exact List.mem_cons_self))
          (fun p n d o e hp => P.names p n d o (by rw [e]; exact List.mem_cons_self) (hget p o (exec_get h1 hlive.1 hp)))
          (fun p o e hp => P.scopes p o (by rw [e]; exact List.mem_cons_self) (hget p o (exec_get h1 hlive.1 hp)))
          (fun o ho => hu o (run_objs h2 o ho))
        have hat : ∀ q p, At c V s1 q p → At c V s' q p := fun q p ⟨o, ho, hq⟩ => ⟨o, hget q o ho, hq⟩
        obtain ⟨a, b, d⟩ := ih j1 h2 ⟨hlive.2, fun p n d e => P.auto p n d (List.mem_cons_of_mem _ e),
          fun p n d o e => P.names p n d o (List.mem_cons_of_mem _ e),
          fun p o e => P.scopes p o (List.mem_cons_of_mem _ e)⟩
        refine ⟨a, ?_, ?_⟩
        · intro op' q hm
          simp only [List.mem_cons] at hm
          rcases hm with hm | hm
          · cases hm
            obtain ⟨p, hp⟩ := hh q rfl
            exact ⟨p, hat q p hp⟩
          · exact b op' q hm
        · intro path hp op' r hm
          simp only [List.mem_cons] at hm
          rcases hm with hm | hm
          · cases hm
            exact hr path (fun q p h => hp q p (hat q p h))
          · exact d path hp op' r hm

theorem j_init : J c V St.init := ⟨inv_init, by simp [St.init], (by intro r o h; simp [St.init, St.get] at h), by simp [St.init]⟩

end Verif.Gpi
