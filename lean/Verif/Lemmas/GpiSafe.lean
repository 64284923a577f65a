import Verif.Lemmas.GpiHistory
import Verif.Lemmas.GpiListing
/-!
# When lookups and iterations are defined
-/
namespace Verif.Gpi
variable {c : Flavor} {V : Vpi}

structure Good (V : Vpi) (o : Obj) : Prop where
  impl : o.impl = 0
  scope : o.type = .genArray → ∃ t, V.type o.hdl = some t ∧ t.scope = true

theorem createObj_good {h name full o} (e : createObj c V 0 h name full = some o) : Good V o :=
  ⟨(createObj_made e).impl, fun hg => by
    have h1 := createObj_scope e hg
    rw [h1.2.1]; exact h1.1⟩

theorem vpiByName_good {n p o} (h : vpiByName c V 0 n p = some o) : Good V o := by
  unfold vpiByName at h
  split at h
  · cases h
  · exact createObj_good h

theorem vpiByIndex_good {i p o} (h : vpiByIndex c V 0 i p = some o) : Good V o := by
  unfold vpiByIndex at h
  split at h
  · cases h
  · exact createObj_good h

theorem vpiRoot_good {n o} (h : vpiRoot V 0 n = some o) : Good V o :=
  ⟨(vpiRoot_eq h).1, fun hg => by rw [(vpiRoot_eq h).2.1] at hg; cases hg⟩

structure K (c : Flavor) (V : Vpi) (s : St) : Prop where
  objs : ∀ o ∈ s.objs, Good V o
  iters : ∀ it, some it ∈ s.iters → it.impl = 0 ∧ (∀ o, Item.native o ∈ it.rest → Good V o) ∧ .raises ∉ it.rest ∧
    (it.parent = none → ∀ x ∈ it.rest, ∃ o, x = .native o) ∧ ∀ p, it.parent = some p → ∃ o, s.get p = some o

theorem K.store {s : St} (k : K c V s) {o} (ho : Good V o) : K c V (store s o).1 := by
  have E := store_eff s o
  have hit := store_iters s o
  refine ⟨?_, ?_⟩
  · have : (Gpi.store s o).1.objs = s.objs ++ [o] := by unfold Gpi.store; dsimp only; split <;> rfl
    rw [this]
    intro x hx
    rw [List.mem_append, List.mem_singleton] at hx
    rcases hx with hx | rfl
    · exact k.objs x hx
    · exact ho
  · rw [hit]
    intro it hm
    obtain ⟨h1, h2, h3, h4, h5⟩ := k.iters it hm
    exact ⟨h1, h2, h3, h4, fun p hp => by obtain ⟨o, h⟩ := h5 p hp; exact ⟨o, E.get h⟩⟩

theorem K.storeOpt {s : St} (k : K c V s) {x} (hx : ∀ o, x = some o → Good V o) : K c V (toRes (storeOpt s x)).1 := by
  cases x with
  | none => exact k
  | some o => exact k.store (hx o rfl)

theorem K.newIter {s s' : St} (k : K c V s) {p it r} (h : newIter s 0 p it = some (s', r))
    (hit : ∀ l, it = .items l → (∀ o, Item.native o ∈ l → Good V o) ∧ .raises ∉ l ∧
      (p = none → ∀ x ∈ l, ∃ o, x = .native o) ∧ ∀ q, p = some q → ∃ o, s.get q = some o) : K c V s' := by
  cases it with
  | null => cases h; exact k
  | undef => cases h
  | items l =>
    cases h
    refine ⟨k.objs, ?_⟩
    intro it hm
    rw [List.mem_append, List.mem_singleton] at hm
    rcases hm with hm | hm
    · exact k.iters it hm
    · cases hm
      exact ⟨rfl, hit l rfl⟩

theorem rootItems_good {V : Vpi} {x} (h : x ∈ rootItems V 0) : ∃ o, x = .native o ∧ Good V o := by
  unfold rootItems at h
  rw [List.mem_filterMap] at h
  obtain ⟨y, _, h⟩ := h
  rw [Option.map_eq_some_iff] at h
  obtain ⟨n, _, rfl⟩ := h
  exact ⟨_, rfl, rfl, fun hg => by cases hg⟩

theorem packageItems_good {V : Vpi} {x} (h : x ∈ packageItems V 0) (hr : x ≠ .raises) : ∃ o, x = .native o ∧ Good V o := by
  unfold packageItems at h
  rw [List.mem_filterMap] at h
  obtain ⟨y, _, h⟩ := h
  rw [Option.map_eq_some_iff] at h
  obtain ⟨n, _, h⟩ := h
  split at h
  · subst h; exact ⟨_, rfl, rfl, fun hg => by cases hg⟩
  · exact absurd h.symm hr

/-- Iterators of the single implementation. -/
theorem objects_good {p o' l} (hl : vpiItems c V 0 (some p) .objects = .items l) :
    (Item.native o' ∈ l → Good V o') ∧ .raises ∉ l := by
  have key : ∀ x ∈ l, ∃ rel h, x = scanItem c V 0 p rel h := by
    simp only [vpiItems] at hl
    split at hl
    · cases hl
      intro x hx
      rw [List.mem_map] at hx
      obtain ⟨y, _, rfl⟩ := hx
      exact ⟨_, _, rfl⟩
    · cases hl
  refine ⟨fun hm => ?_, fun hm => ?_⟩
  · obtain ⟨rel, h, e⟩ := key _ hm
    unfold scanItem at e
    split at e
    · split at e <;> cases e
    · dsimp only at e
      split at e
      · rename_i hc; cases e; exact createObj_good hc
      · cases e
  · obtain ⟨rel, h, e⟩ := key _ hm
    unfold scanItem at e
    split at e
    · split at e <;> cases e
    · dsimp only at e
      split at e <;> cases e

theorem one_impl {k : Nat} {I : Impl} (h : (one c V)[k]? = some I) : k = 0 ∧ I = vpiImpl c V 0 := by
  cases k with
  | zero => cases h; exact ⟨rfl, rfl⟩
  | succ k => simp at h

theorem firstIter_one {sel k it} (h : firstIter (one c V) sel = some (k, it)) : k = 0 ∧ it = vpiItems c V 0 none sel := by
  unfold firstIter at h
  obtain ⟨j, _, h⟩ := List.exists_of_findSome?_eq_some h
  split at h
  · rename_i I hI
    obtain ⟨rfl, rfl⟩ := one_impl hI
    split at h
    · cases h
    · cases h; exact ⟨rfl, rfl⟩
  · cases h

/-- Every object that comes from a live iterator is good, and the rest stays as it should. -/
theorem nextLoop_shape {p : Option Obj} (hp : ∀ o, p = some o → o.impl = 0) {l rest o}
    (h : nextLoop (one c V) p 0 l = some (some (rest, o))) : Item.native o ∈ l ∧ ∀ x ∈ rest, x ∈ l :=
  nextLoop_one hp h

theorem K.exec {s s' : St} (k : K c V s) {op r} (h : exec (one c V) s op = some (s', r)) (hf : op ≠ .finalize)
    (hpk : .raises ∉ packageItems V 0) : K c V s' := by
  cases op with
  | root n =>
    simp only [Gpi.exec] at h
    rw [root_one] at h
    injection h with h
    have := k.storeOpt (x := vpiRoot V 0 n) (fun o ho => vpiRoot_good ho)
    rw [h] at this; exact this
  | byName p n d =>
    simp only [Gpi.exec] at h
    cases hp : s.get p with
    | none => rw [hp] at h; cases h
    | some po =>
      rw [hp] at h
      have h0 := (k.objs po (get_mem hp)).impl
      cases d with
      | auto =>
        dsimp only at h
        rw [childByName_one h0] at h
        injection h with h
        have := k.storeOpt (x := vpiByName c V 0 n po) (fun o ho => vpiByName_good ho)
        rw [h] at this; exact this
      | native =>
        dsimp only at h
        rw [h0] at h
        simp only [List.getElem?_cons_zero, Option.bind_some, vpiImpl] at h
        split at h
        · rename_i o ho
          cases h
          refine ⟨?_, ?_⟩
          · intro x hx
            rw [List.mem_append, List.mem_singleton] at hx
            rcases hx with hx | rfl
            · exact k.objs x hx
            · exact vpiByName_good ho
          · intro it hm
            obtain ⟨h1, h2, h3, h4, h5⟩ := k.iters it hm
            refine ⟨h1, h2, h3, h4, fun q hq => ?_⟩
            obtain ⟨o1, ho1⟩ := h5 q hq
            refine ⟨o1, ?_⟩
            unfold St.get at ho1 ⊢
            split at ho1
            · cases ho1
            · rename_i hn
              rw [if_neg hn, List.getElem?_append_left (List.getElem?_eq_some_iff.mp ho1).1]; exact ho1
        · cases h; exact k
  | byIndex p i =>
    simp only [Gpi.exec] at h
    cases hp : s.get p with
    | none => rw [hp] at h; cases h
    | some po =>
      rw [hp] at h
      have h0 := (k.objs po (get_mem hp)).impl
      dsimp only at h
      rw [h0] at h
      simp only [List.getElem?_cons_zero, Option.bind_some, vpiImpl] at h
      split at h
      · injection h with h
        have := k.storeOpt (x := vpiByIndex c V 0 i po) (fun o ho => vpiByIndex_good ho)
        rw [h] at this; exact this
      · cases h; exact k
  | iterate p sel =>
    simp only [Gpi.exec] at h
    split at h
    · rename_i hsel
      cases p with
      | some q => cases h; exact k
      | none =>
        dsimp only at h
        split at h
        · rename_i j it hfi
          obtain ⟨rfl, rfl⟩ := firstIter_one hfi
          refine k.newIter h ?_
          intro l hl
          rcases hsel with rfl | rfl
          · simp only [vpiItems] at hl
            cases hl
            refine ⟨fun o ho => ?_, hpk, fun _ x hx => ?_, (by intro q hq; cases hq)⟩
            · obtain ⟨o', e, g⟩ := packageItems_good ho (by simp)
              cases e; exact g
            · obtain ⟨o', e, g⟩ := packageItems_good hx (by rintro rfl; exact hpk hx)
              exact ⟨o', e⟩
          · simp only [vpiItems] at hl
            cases hl
            refine ⟨fun o ho => ?_, fun ho => ?_, fun _ x hx => ?_, (by intro q hq; cases hq)⟩
            · obtain ⟨o', e, g⟩ := rootItems_good ho
              cases e; exact g
            · obtain ⟨o', e, g⟩ := rootItems_good ho
              cases e
            · obtain ⟨o', e, g⟩ := rootItems_good hx
              exact ⟨o', e⟩
        · cases h; exact k
    · rename_i hsel
      split at h
      · cases h
      · rename_i po hpo
        obtain ⟨q, rfl, hq⟩ := Option.bind_eq_some_iff.mp hpo
        have h0 := (k.objs po (get_mem hq)).impl
        rw [h0] at h
        simp only [List.getElem?_cons_zero, vpiImpl] at h
        refine k.newIter h ?_
        intro l hl
        have ho : sel = .objects := by
          cases sel with
          | objects => rfl
          | drivers => simp [vpiItems] at hl
          | loads => simp [vpiItems] at hl
          | packages => simp at hsel
          | roots => simp at hsel
        subst ho
        exact ⟨fun o hm => (objects_good hl).1 hm, (objects_good (o' := po) hl).2, (by intro e; cases e),
          fun q' e => by cases e; exact ⟨po, hq⟩⟩
  | next j =>
    simp only [Gpi.exec] at h
    split at h
    · rename_i it hit
      have hm := List.mem_of_getElem? hit
      obtain ⟨h1, h2, h3, h4, h5⟩ := k.iters it hm
      split at h
      · cases h
      · cases h
        refine ⟨k.objs, ?_⟩
        intro it' hm'
        rcases List.mem_or_eq_of_mem_set hm' with hm' | hm'
        · exact k.iters it' hm'
        · cases hm'
      · rename_i rest o hn
        cases h
        rw [h1] at hn
        have hp : ∀ po, it.parent.bind s.get = some po → po.impl = 0 := by
          intro po hpo
          obtain ⟨q, _, hq⟩ := Option.bind_eq_some_iff.mp hpo
          exact (k.objs po (get_mem hq)).impl
        obtain ⟨hin, hsub⟩ := nextLoop_shape hp hn
        have ks := k.store (h2 o hin)
        refine ⟨ks.objs, ?_⟩
        intro it' hm'
        rcases List.mem_or_eq_of_mem_set hm' with hm' | hm'
        · exact ks.iters it' hm'
        · cases hm'
          refine ⟨h1, fun o' ho' => h2 o' (hsub _ ho'), fun hr => h3 (hsub _ hr), fun he x hx => h4 he x (hsub _ hx), ?_⟩
          intro q hq
          obtain ⟨oq, hoq⟩ := h5 q hq
          exact ⟨oq, (store_eff s o).get hoq⟩
    · cases h
  | finalize => exact absurd rfl hf

theorem k_init : K c V St.init := ⟨by simp [St.init], by simp [St.init]⟩

theorem K.run {s s' : St} (k : K c V s) {ops outs} (h : run (one c V) s ops = some (s', outs)) (hf : .finalize ∉ ops)
    (hpk : .raises ∉ packageItems V 0) : K c V s' := by
  induction ops generalizing s outs with
  | nil => cases h; exact k
  | cons op ops ih =>
    simp only [List.mem_cons, not_or] at hf
    simp only [Gpi.run] at h
    split at h
    · cases h
    · rename_i s1 r h1
      split at h
      · cases h
      · rename_i s2 outs' h2
        cases h
        exact ih (k.exec h1 (fun e => hf.1 e.symm) hpk) h2 hf.2

/-- `gpi_next` on a live iterator is defined. -/
theorem nextLoop_defined {p : Option Obj} {l : List Item} (hp : ∀ o, p = some o → o.impl = 0) (hr : .raises ∉ l)
    (hn : p = none → ∀ x ∈ l, ∃ o, x = Item.native o) : nextLoop (one c V) p 0 l ≠ none := by
  induction l with
  | nil => simp [nextLoop]
  | cons x l ih =>
    simp only [List.mem_cons, not_or] at hr
    have ih' := ih hr.2 (fun e y hy => hn e y (List.mem_cons_of_mem _ hy))
    cases x with
    | native o => simp [nextLoop]
    | nativeNoName => exact ih'
    | notNative name =>
      cases p with
      | none => obtain ⟨o, e⟩ := hn rfl _ (List.mem_cons_self ..); cases e
      | some po =>
        simp only [nextLoop]
        rw [childByName_skip (hp po rfl)]
        exact ih'
    | notNativeNoName raw =>
      cases p with
      | none => obtain ⟨o, e⟩ := hn rfl _ (List.mem_cons_self ..); cases e
      | some po =>
        simp only [nextLoop]
        rw [childFromHandle_skip]
        exact ih'
    | raises => exact absurd rfl hr.1

theorem scanAll_defined {o : Obj} (g : Good V o) (hi : o.type = .genArray → V.type o.hdl ≠ some .interface) :
    scanAll c V o ≠ none := by
  unfold scanAll
  split
  · simp
  · rename_i rels hrels
    split
    · rename_i hg
      obtain ⟨t, ht, hs⟩ := g.scope hg
      have hne := hi hg
      rw [ht] at hne hrels
      split
      · simp
      · rename_i hnm
        exfalso
        simp only [Option.bind_some] at hrels
        cases t <;> simp only [iterateOver] at hrels <;> first
          | (exact hne rfl)
          | (cases hrels; done)
          | (cases hrels; exact hnm (by decide))
          | (revert hs; decide)
    · simp

end Verif.Gpi
