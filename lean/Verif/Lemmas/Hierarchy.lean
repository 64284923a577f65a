import Verif.Spec.Hierarchy
/-!
# Invariants of object lookup

Every operation is a sequence of elementary moves; the invariants are shown for the moves.
-/
namespace Verif.Hier
open Verif.Spec

/-- Why an entry is made in the children of an object. -/
inductive Why (D : Design) (nat : Prop) (dsc : Nat → Prop) (o : Nat) (x : ObjS) (k : Key) (h : Hdl) : Prop
  | asked : dictGet x.subs k = none → answer D x.cls x.hdl k = some h → Why D nat dsc o x k h
  | native (t : Nat) (n : PyStr) : nat → dictGet x.subs k = none → k = .name n → x.cls = .module →
      D.native x.hdl n t = some h → Why D nat dsc o x k h
  | listed : dsc o → Listed D x.cls x.hdl k h → Why D nat dsc o x k h

/-- Elementary moves. -/
inductive Move (D : Design) (nat : Prop) (dsc : Nat → Prop) : St → St → Prop
  | create (s : St) (h : Hdl) : dictGet s.table h = none → D.kind h ≠ .unsupported →
      Move D nat dsc s { s with objs := s.objs ++ [⟨h, D.kind h, [], false⟩],
                                table := dictSet s.table h s.objs.length }
  | sub (s : St) (o : Nat) (x : ObjS) (k : Key) (c : Nat) (h : Hdl) : s.objs[o]? = some x →
      x.cls ≠ .logicArray → dictGet s.table h = some c → Why D nat dsc o x k h →
      Move D nat dsc s (s.setSub o k c)
  | logic (s : St) (o : Nat) (x : ObjS) (k : Key) (h : Hdl) : s.objs[o]? = some x →
      x.cls = .logicArray → dictGet x.subs k = none → answer D x.cls x.hdl k = some h →
      Move D nat dsc s ((newLogic h s).2.setSub o k (newLogic h s).1)
  | disc (s : St) (o : Nat) : dsc o →
      (∀ x, s.objs[o]? = some x → ∀ k c, Listed D x.cls x.hdl k c → D.kind c ≠ .unsupported →
        (dictGet x.subs k).isSome) →
      Move D nat dsc s (s.setDiscovered o)
  | count (s : St) : nat → Move D nat dsc s { s with natives := s.natives + 1 }

inductive Moves (D : Design) (nat : Prop) (dsc : Nat → Prop) : St → St → Prop
  | refl (s : St) : Moves D nat dsc s s
  | tail {s t u : St} : Moves D nat dsc s t → Move D nat dsc t u → Moves D nat dsc s u

variable {D : Design} {nat : Prop} {dsc : Nat → Prop}

theorem Moves.trans {s t u : St} (a : Moves D nat dsc s t) (b : Moves D nat dsc t u) :
    Moves D nat dsc s u := by
  induction b with
  | refl => exact a
  | tail _ m ih => exact .tail ih m

theorem Moves.one {s t : St} (m : Move D nat dsc s t) : Moves D nat dsc s t := .tail (.refl s) m

/-! ## Table and objects -/

/-- The invariant that needs no assumption on the design. -/
structure Inv (D : Design) (s : St) : Prop where
  table : ∀ h o, dictGet s.table h = some o → ∃ x, s.objs[o]? = some x ∧ x.hdl = h
  made : ∀ h o, dictGet s.table h = some o → D.kind h ≠ .unsupported
  subs : ∀ (o : Nat) x k c, s.objs[o]? = some x → dictGet x.subs k = some c → ∃ y, s.objs[c]? = some y ∧
    (x.cls ≠ .logicArray → dictGet s.table y.hdl = some c)
  nodup : ∀ (o : Nat) x, s.objs[o]? = some x → (x.subs.map (·.1)).Nodup
  cls : ∀ (o : Nat) x, s.objs[o]? = some x → x.cls = D.kind x.hdl ∨ x.cls = .leaf

theorem Inv.init : Inv D St.init := by
  constructor <;> intros <;> simp_all [St.init, dictGet]

/-- Objects persist: same handle and class; entries of the singleton table stay. -/
structure Later (s t : St) : Prop where
  obj : ∀ (o : Nat) x, s.objs[o]? = some x → ∃ y, t.objs[o]? = some y ∧ y.hdl = x.hdl ∧ y.cls = x.cls
  table : ∀ h o, dictGet s.table h = some o → dictGet t.table h = some o

theorem Later.refl (s : St) : Later s s := ⟨fun _ x h => ⟨x, h, rfl, rfl⟩, fun _ _ h => h⟩

theorem Later.trans {s t u : St} (a : Later s t) (b : Later t u) : Later s u := by
  refine ⟨fun o x h => ?_, fun h o e => b.table h o (a.table h o e)⟩
  obtain ⟨y, hy, h1, h2⟩ := a.obj o x h
  obtain ⟨z, hz, h3, h4⟩ := b.obj o y hy
  exact ⟨z, hz, h3.trans h1, h4.trans h2⟩

theorem setSub_get (s : St) (o p : Nat) (k : Key) (c : Nat) :
    (s.setSub o k c).objs[p]? = (s.objs[p]?).map fun x => if o = p then { x with subs := dictSet x.subs k c } else x := by
  simp only [St.setSub, List.getElem?_modify]
  split <;> simp_all

theorem setDisc_get (s : St) (o p : Nat) :
    (s.setDiscovered o).objs[p]? = (s.objs[p]?).map fun x => if o = p then { x with discovered := true } else x := by
  simp only [St.setDiscovered, List.getElem?_modify]
  split <;> simp_all

theorem push_get {l : List ObjS} {y : ObjS} {p : Nat} {x : ObjS} (h : (l ++ [y])[p]? = some x) :
    l[p]? = some x ∨ (p = l.length ∧ x = y) := by
  rw [List.getElem?_append] at h
  split at h
  · exact .inl h
  · rename_i hp
    right
    have : p - l.length = 0 := by
      cases e : p - l.length with
      | zero => rfl
      | succ n => rw [e] at h; simp at h
    rw [this] at h; simp at h
    exact ⟨by omega, h.symm⟩

theorem push_old {l : List ObjS} {y : ObjS} {p : Nat} {x : ObjS} (h : l[p]? = some x) :
    (l ++ [y])[p]? = some x := by
  rw [List.getElem?_append_left (List.getElem?_eq_some_iff.1 h).1]; exact h

theorem setSub_later (s : St) (o : Nat) (k : Key) (c : Nat) : Later s (s.setSub o k c) := by
  refine ⟨fun p x h => ?_, fun _ _ h => h⟩
  rw [setSub_get, h]
  simp only [Option.map_some]
  split <;> exact ⟨_, rfl, rfl, rfl⟩

theorem Move.later {s t : St} (m : Move D nat dsc s t) : Later s t := by
  cases m with
  | create h hn hk =>
    refine ⟨fun o x e => ⟨x, push_old e, rfl, rfl⟩, fun g o e => ?_⟩
    have : h ≠ g := by intro e'; subst e'; rw [hn] at e; cases e
    simp only [dictGet_set, this, if_false, e]
  | sub o x k c h hx hc ht hw => exact setSub_later s o k c
  | logic o x k h hx hc hn ha =>
    refine Later.trans ?_ (setSub_later _ _ _ _)
    exact ⟨fun p y e => ⟨y, push_old e, rfl, rfl⟩, fun _ _ e => e⟩
  | disc o _ _ =>
    refine ⟨fun p x h => ?_, fun _ _ h => h⟩
    rw [setDisc_get, h]
    simp only [Option.map_some]
    split <;> exact ⟨_, rfl, rfl, rfl⟩
  | count _ => exact ⟨fun _ x h => ⟨x, h, rfl, rfl⟩, fun _ _ h => h⟩

theorem Moves.later {s t : St} (m : Moves D nat dsc s t) : Later s t := by
  induction m with
  | refl => exact Later.refl _
  | tail _ m ih => exact ih.trans m.later

theorem Move.inv {s t : St} (m : Move D nat dsc s t) (i : Inv D s) : Inv D t := by
  have lt := m.later
  have hcl : ∀ (o : Nat) x, t.objs[o]? = some x → x.cls = D.kind x.hdl ∨ x.cls = .leaf := by
    intro o x hx
    cases m with
    | create h hn hk =>
      rcases push_get hx with e | ⟨_, rfl⟩
      · exact i.cls o x e
      · exact .inl rfl
    | sub p y k c h hy hcls ht hw =>
      rw [setSub_get] at hx
      obtain ⟨x0, hx0, rfl⟩ := Option.map_eq_some_iff.1 hx
      have := i.cls o x0 hx0
      split <;> exact this
    | logic p y k h hy hcls hn ha =>
      rw [setSub_get] at hx
      obtain ⟨x0, hx0, rfl⟩ := Option.map_eq_some_iff.1 hx
      have : x0.cls = D.kind x0.hdl ∨ x0.cls = .leaf := by
        rcases push_get hx0 with e | ⟨_, rfl⟩
        · exact i.cls o x0 e
        · exact .inr rfl
      split <;> exact this
    | disc p _ _ =>
      rw [setDisc_get] at hx
      obtain ⟨x0, hx0, rfl⟩ := Option.map_eq_some_iff.1 hx
      have := i.cls o x0 hx0
      split <;> exact this
    | count _ => exact i.cls o x hx
  have tbl : ∀ (u : St), u.table = s.table → Later s u → ∀ h o, dictGet u.table h = some o →
      ∃ x, u.objs[o]? = some x ∧ x.hdl = h := by
    intro u hu l h o e
    rw [hu] at e
    obtain ⟨x, hx, hh⟩ := i.table h o e
    obtain ⟨y, hy, h1, _⟩ := l.obj o x hx
    exact ⟨y, hy, h1.trans hh⟩
  -- an entry that was there before
  have old : ∀ (o : Nat) x k c, s.objs[o]? = some x → dictGet x.subs k = some c → ∃ y, t.objs[c]? = some y ∧
      (x.cls ≠ .logicArray → dictGet t.table y.hdl = some c) := by
    intro o x k c hx hc
    obtain ⟨y, hy, hl⟩ := i.subs o x k c hx hc
    obtain ⟨z, hz, h1, _⟩ := lt.obj c y hy
    exact ⟨z, hz, fun h => lt.table _ _ (h1 ▸ hl h)⟩
  cases m with
  | create h hn hk =>
    refine ⟨?_, ?_, ?_, ?_, hcl⟩
    rotate_left
    · intro g o e
      simp only [dictGet_set] at e
      split at e
      · rename_i hg; subst hg; exact hk
      · exact i.made g o e
    rotate_right
    · intro g o e
      simp only [dictGet_set] at e
      split at e
      · rename_i hg
        cases e
        exact ⟨⟨h, D.kind h, [], false⟩, by simp, hg⟩
      · obtain ⟨x, hx, hh⟩ := i.table g o e
        exact ⟨x, push_old hx, hh⟩
    · intro o x k c hx hc
      rcases push_get hx with e | ⟨_, rfl⟩
      · exact old o x k c e hc
      · simp [dictGet] at hc
    · intro o x hx
      rcases push_get hx with e | ⟨_, rfl⟩
      · exact i.nodup o x e
      · simp
  | sub o x k c h hx hcls ht hw =>
    refine ⟨tbl _ rfl lt, i.made, ?_, ?_, hcl⟩
    · intro p y j d hy hd
      rw [setSub_get] at hy
      obtain ⟨y0, hy0, rfl⟩ := Option.map_eq_some_iff.1 hy
      by_cases hp : o = p
      · subst hp
        rw [hx] at hy0; cases hy0
        simp only [if_true] at hd ⊢
        rw [dictGet_set] at hd
        split at hd
        · cases hd
          obtain ⟨z, hz, hh⟩ := i.table h c ht
          obtain ⟨w, hw, h1, _⟩ := lt.obj c z hz
          exact ⟨w, hw, fun _ => by rw [h1, hh]; exact ht⟩
        · exact old o x j d hx hd
      · simp only [hp, if_false] at hd ⊢
        exact old p y0 j d hy0 hd
    · intro p y hy
      rw [setSub_get] at hy
      obtain ⟨y0, hy0, rfl⟩ := Option.map_eq_some_iff.1 hy
      split
      · exact dictSet_nodup (i.nodup p y0 hy0) _ _
      · exact i.nodup p y0 hy0
  | logic o x k h hx hcls hn ha =>
    refine ⟨tbl _ rfl lt, i.made, ?_, ?_, hcl⟩
    · intro p y j d hy hd
      rw [setSub_get] at hy
      obtain ⟨y0, hy0, rfl⟩ := Option.map_eq_some_iff.1 hy
      have hnew : ∃ z, ((newLogic h s).2.setSub o k (newLogic h s).1).objs[(newLogic h s).1]? = some z := by
        rw [setSub_get]; simp [newLogic]
      by_cases hp : o = p
      · subst hp
        have hx' : (newLogic h s).2.objs[o]? = some x := push_old hx
        rw [hx'] at hy0; cases hy0
        simp only [if_true] at hd ⊢
        rw [dictGet_set] at hd
        split at hd
        · cases hd
          obtain ⟨z, hz⟩ := hnew
          exact ⟨z, hz, fun hne => absurd hcls hne⟩
        · exact old o x j d hx hd
      · simp only [hp, if_false] at hd ⊢
        rcases push_get hy0 with e | ⟨_, rfl⟩
        · exact old p y0 j d e hd
        · simp [dictGet] at hd
    · intro p y hy
      rw [setSub_get] at hy
      obtain ⟨y0, hy0, rfl⟩ := Option.map_eq_some_iff.1 hy
      have hn0 : (y0.subs.map (·.1)).Nodup := by
        rcases push_get hy0 with e | ⟨_, rfl⟩
        · exact i.nodup p y0 e
        · simp
      split
      · exact dictSet_nodup hn0 _ _
      · exact hn0
  | disc o _ _ =>
    refine ⟨tbl _ rfl lt, i.made, ?_, ?_, hcl⟩
    · intro p y j d hy hd
      rw [setDisc_get] at hy
      obtain ⟨y0, hy0, rfl⟩ := Option.map_eq_some_iff.1 hy
      have := old p y0 j d hy0
      split at hd
      · rename_i e; subst e; simp only [if_true]; exact this hd
      · rename_i e; simp only [e, if_false]; exact this hd
    · intro p y hy
      rw [setDisc_get] at hy
      obtain ⟨y0, hy0, rfl⟩ := Option.map_eq_some_iff.1 hy
      have := i.nodup p y0 hy0
      split <;> exact this
  | count _ => exact ⟨i.table, i.made, i.subs, i.nodup, i.cls⟩

theorem Moves.inv {s t : St} (m : Moves D nat dsc s t) (i : Inv D s) : Inv D t := by
  induction m with
  | refl => exact i
  | tail _ m ih => exact m.inv ih

/-! ## Entries of `_sub_handles` -/

/-- Under a predicate on (class, handle, key, child handle) that the reasons for entries respect, all
entries satisfy it. -/
def SubsAre (P : Kind → Hdl → Key → Hdl → Prop) (s : St) : Prop :=
  ∀ (o : Nat) x k c y, s.objs[o]? = some x → dictGet x.subs k = some c → s.objs[c]? = some y →
    P x.cls x.hdl k y.hdl

theorem Move.subsAre {P : Kind → Hdl → Key → Hdl → Prop} {s t : St} (m : Move D nat dsc s t)
    (i : Inv D s)
    (hw : ∀ o x k h, Why D nat dsc o x k h → P x.cls x.hdl k h) (hs : SubsAre P s) : SubsAre P t := by
  have lt := m.later
  have old : ∀ (o : Nat) x k c y, s.objs[o]? = some x → dictGet x.subs k = some c → t.objs[c]? = some y →
      P x.cls x.hdl k y.hdl := by
    intro o x k c y hx hc hy
    obtain ⟨y0, hy0, _⟩ := i.subs o x k c hx hc
    obtain ⟨z, hz, h1, _⟩ := lt.obj c y0 hy0
    rw [hy] at hz; cases hz
    rw [h1]; exact hs o x k c y0 hx hc hy0
  cases m with
  | create h hn hk =>
    intro o x k c y hx hc hy
    rcases push_get hx with e | ⟨_, rfl⟩
    · exact old o x k c y e hc hy
    · simp [dictGet] at hc
  | sub o x k c h hx hcls ht hwy =>
    intro p y j d z hy hd hz
    rw [setSub_get] at hy
    obtain ⟨y0, hy0, rfl⟩ := Option.map_eq_some_iff.1 hy
    by_cases hp : o = p
    · subst hp
      rw [hx] at hy0; cases hy0
      simp only [if_true] at hd ⊢
      rw [dictGet_set] at hd
      split at hd
      · rename_i e; subst e; cases hd
        obtain ⟨w, hw', hh⟩ := i.table h c ht
        obtain ⟨v, hv, h1, _⟩ := lt.obj c w hw'
        rw [hz] at hv; cases hv
        rw [h1, hh]; exact hw o x k h hwy
      · exact old o x j d z hx hd hz
    · simp only [hp, if_false] at hd ⊢
      exact old p y0 j d z hy0 hd hz
  | logic o x k h hx hcls hn ha =>
    intro p y j d z hy hd hz
    rw [setSub_get] at hy
    obtain ⟨y0, hy0, rfl⟩ := Option.map_eq_some_iff.1 hy
    by_cases hp : o = p
    · subst hp
      have hx' : (newLogic h s).2.objs[o]? = some x := push_old hx
      rw [hx'] at hy0; cases hy0
      simp only [if_true] at hd ⊢
      rw [dictGet_set] at hd
      split at hd
      · rename_i e; subst e; cases hd
        rw [setSub_get] at hz
        obtain ⟨z0, hz0, rfl⟩ := Option.map_eq_some_iff.1 hz
        simp [newLogic] at hz0; subst hz0
        have := hw o x k h (.asked hn ha)
        split <;> exact this
      · exact old o x j d z hx hd hz
    · simp only [hp, if_false] at hd ⊢
      rcases push_get hy0 with e | ⟨_, rfl⟩
      · exact old p y0 j d z e hd hz
      · simp [dictGet] at hd
  | disc o _ _ =>
    intro p y j d z hy hd hz
    rw [setDisc_get] at hy
    obtain ⟨y0, hy0, rfl⟩ := Option.map_eq_some_iff.1 hy
    have := old p y0 j d z hy0
    split at hd
    · rename_i e; subst e; simp only [if_true]; exact this hd hz
    · rename_i e; simp only [e, if_false]; exact this hd hz
  | count _ => exact hs

theorem Moves.subsAre {P : Kind → Hdl → Key → Hdl → Prop} {s t : St} (m : Moves D nat dsc s t)
    (i : Inv D s)
    (hw : ∀ o x k h, Why D nat dsc o x k h → P x.cls x.hdl k h) (hs : SubsAre P s) : SubsAre P t := by
  induction m with
  | refl => exact hs
  | tail a m ih => exact m.subsAre (a.inv i) hw ih

/-- Object `c` is recorded as child `k` of `o`. -/
def Has (s : St) (o : Nat) (k : Key) (c : Nat) : Prop := dictGet (s.subs o) k = some c

theorem has_iff {s : St} {o : Nat} {k : Key} {c : Nat} :
    Has s o k c ↔ ∃ x, s.objs[o]? = some x ∧ dictGet x.subs k = some c := by
  unfold Has St.subs
  cases h : s.objs[o]? <;> simp [dictGet]

/-- Recorded children stay, if listing cannot put another object in their place. -/
theorem Move.has {s t : St} (m : Move D nat dsc s t) {o : Nat} {k : Key} {c : Nat}
    (hl : ∀ x h, s.objs[o]? = some x → dsc o → Listed D x.cls x.hdl k h → dictGet s.table h = some c)
    (h : Has s o k c) : Has t o k c := by
  rw [has_iff] at h ⊢
  obtain ⟨x, hx, hc⟩ := h
  cases m with
  | create g hn hk => exact ⟨x, push_old hx, hc⟩
  | sub p y j d g hy hcls ht hw =>
    rw [setSub_get, hx]
    refine ⟨_, rfl, ?_⟩
    by_cases hp : p = o
    · subst hp
      rw [hx] at hy; cases hy
      simp only [if_true, dictGet_set]
      split
      · rename_i e; subst e
        cases hw with
        | asked hn _ => rw [hn] at hc; cases hc
        | native _ _ _ hn _ _ _ => rw [hn] at hc; cases hc
        | listed hd hlist => have := hl x g hx hd hlist; rw [ht] at this; exact this
      · exact hc
    · simp only [hp, if_false]; exact hc
  | logic p y j g hy hcls hn ha =>
    have hx' : (newLogic g s).2.objs[o]? = some x := push_old hx
    rw [setSub_get, hx']
    refine ⟨_, rfl, ?_⟩
    by_cases hp : p = o
    · subst hp
      rw [hx] at hy; cases hy
      simp only [if_true, dictGet_set]
      split
      · rename_i e; subst e; rw [hn] at hc; cases hc
      · exact hc
    · simp only [hp, if_false]; exact hc
  | disc p _ _ =>
    rw [setDisc_get, hx]
    refine ⟨_, rfl, ?_⟩
    split <;> exact hc
  | count _ => exact ⟨x, hx, hc⟩

/-! ## Operations are sequences of moves -/

theorem make_spec (D : Design) (nat : Prop) (dsc : Nat → Prop) (h : Hdl) (s : St) :
    Moves D nat dsc s (make D h s).2 ∧
    (∀ c, (make D h s).1 = .ok c → dictGet (make D h s).2.table h = some c) ∧
    (∀ e, (make D h s).1 = .error e → (make D h s).2 = s ∧ D.kind h = .unsupported) ∧
    (∀ (o : Nat) x, s.objs[o]? = some x → (make D h s).2.objs[o]? = some x) := by
  unfold make
  cases ht : dictGet s.table h with
  | some o => exact ⟨.refl s, fun c e => by cases e; exact ht, fun e he => by simp at he, fun _ _ e => e⟩
  | none =>
    simp only
    split
    · rename_i hu
      exact ⟨.refl s, fun c e => by simp at e, fun e he => ⟨rfl, hu⟩, fun _ _ e => e⟩
    · rename_i hu
      refine ⟨.one (.create s h ht hu), fun c e => ?_, fun e he => by simp at he, fun _ _ e => push_old e⟩
      simp only [Except.ok.injEq] at e
      subst e; exact dictGet_set_same _ _ _

theorem handleByKey_spec (D : Design) (dsc : Nat → Prop) {x : ObjS} (k : Key) (d : Disc) (s : St) :
    Moves D (d = .native) dsc s (handleByKey D x k d s).2 ∧
    (handleByKey D x k d s).2.objs = s.objs ∧
    (∀ h, (handleByKey D x k d s).1 = .ok (some h) → x.cls ≠ .logicArray ∧
      (d = .auto → answer D x.cls x.hdl k = some h) ∧
      (d = .native → ∃ t n, k = .name n ∧ x.cls = .module ∧ D.native x.hdl n t = some h)) ∧
    (d = .auto → (handleByKey D x k d s).1 = .ok none → answer D x.cls x.hdl k = none) := by
  unfold handleByKey getByIndex
  cases hc : x.cls <;> cases k <;> cases d <;> simp only [reduceCtorEq, answer] <;>
    (try split) <;> simp_all <;> first
    | exact .refl s
    | (refine ⟨.one (.count s trivial), fun h e => ⟨_, e⟩⟩)

theorem getSub_spec (D : Design) (dsc : Nat → Prop) {o : Nat} {x : ObjS} (k : Key) (d : Disc) (s : St)
    (hx : s.objs[o]? = some x) :
    Moves D (d = .native) dsc s (getSub D o x k d s).2 ∧
    (∀ c, (getSub D o x k d s).1 = .ok (some c) → Has (getSub D o x k d s).2 o k c) ∧
    (∀ c, dictGet x.subs k = some c → getSub D o x k d s = (.ok (some c), s)) := by
  unfold getSub
  cases hg : dictGet x.subs k with
  | some c =>
    exact ⟨.refl s, fun c' e => by cases e; exact has_iff.2 ⟨x, hx, hg⟩, fun c' e => by cases e; rfl⟩
  | none =>
    simp only
    obtain ⟨m1, ho, hf, _⟩ := handleByKey_spec D dsc (x := x) k d s
    generalize handleByKey D x k d s = r at m1 ho hf
    obtain ⟨r, s1⟩ := r
    match r with
    | .error e => exact ⟨m1, fun c e => by simp at e, fun c e => by simp at e⟩
    | .ok none => exact ⟨m1, fun c e => by simp at e, fun c e => by simp at e⟩
    | .ok (some h) =>
      simp only at m1 ho hf ⊢
      obtain ⟨hne, ha, hn⟩ := hf h rfl
      obtain ⟨m2, ht, he, hold⟩ := make_spec D (d = .native) dsc h s1
      generalize make D h s1 = q at m2 ht he hold
      obtain ⟨q, s2⟩ := q
      match q with
      | .error e => exact ⟨m1.trans m2, fun c e => by simp at e, fun c e => by simp at e⟩
      | .ok c =>
        simp only at m2 ht hold ⊢
        have hx2 : s2.objs[o]? = some x := hold o x (by rw [ho]; exact hx)
        have hw : Why D (d = .native) dsc o x k h := by
          cases d with
          | auto => exact .asked hg (ha rfl)
          | native => obtain ⟨t, n, h1, h2, h3⟩ := hn rfl; exact .native t n rfl hg h1 h2 h3
        refine ⟨(m1.trans m2).tail (.sub s2 o x k c h hx2 hne (ht c rfl) hw), ?_, fun c e => by simp at e⟩
        intro c' e
        cases e
        rw [has_iff, setSub_get, hx2]
        exact ⟨_, rfl, by simp [dictGet_set_same]⟩

theorem orRaise_state (e : PyErr) (r : PyM (Option Nat) × St) : (orRaise e r).2 = r.2 := by
  obtain ⟨r, s⟩ := r
  match r with
  | .ok (some c) => rfl
  | .ok none => rfl
  | .error _ => rfl

theorem orRaise_ok {e : PyErr} {r : PyM (Option Nat) × St} {c : Nat} (h : (orRaise e r).1 = .ok c) :
    r.1 = .ok (some c) := by
  obtain ⟨r, s⟩ := r
  match r with
  | .ok (some c') => simp [orRaise] at h; simp [h]
  | .ok none => simp [orRaise] at h
  | .error _ => simp [orRaise] at h

theorem arrayItem_spec (D : Design) (nat : Prop) (dsc : Nat → Prop) {o : Nat} {x : ObjS} (k : Key) (s : St)
    (hx : s.objs[o]? = some x) (hc : x.cls = .array) :
    Moves D nat dsc s (arrayItem D o x k s).2 ∧
    (∀ c, (arrayItem D o x k s).1 = .ok c → Has (arrayItem D o x k s).2 o k c) ∧
    (∀ c, dictGet x.subs k = some c → arrayItem D o x k s = (.ok c, s)) := by
  unfold arrayItem
  cases hg : dictGet x.subs k with
  | some c =>
    exact ⟨.refl s, fun c' e => by cases e; exact has_iff.2 ⟨x, hx, hg⟩, fun c' e => by cases e; rfl⟩
  | none =>
    match k with
    | .name n => exact ⟨.refl s, fun c e => by simp at e, fun c e => by simp at e⟩
    | .idx i =>
      simp only
      cases hb : getByIndex D x.hdl i with
      | error e => exact ⟨.refl s, fun c e => by simp at e, fun c e => by simp at e⟩
      | ok r =>
        cases r with
        | none => exact ⟨.refl s, fun c e => by simp at e, fun c e => by simp at e⟩
        | some h =>
          simp only
          have ha : answer D x.cls x.hdl (.idx i) = some h := by
            unfold getByIndex at hb
            split at hb
            · rename_i hr; simp only [Except.ok.injEq] at hb; simp [answer, hc, hb]; omega
            · cases hb
          obtain ⟨m2, ht, he, hold⟩ := make_spec D nat dsc h s
          generalize make D h s = q at m2 ht he hold
          obtain ⟨q, s2⟩ := q
          match q with
          | .error e => exact ⟨m2, fun c e => by simp at e, fun c e => by simp at e⟩
          | .ok c =>
            simp only at m2 ht hold ⊢
            have hx2 : s2.objs[o]? = some x := hold o x hx
            refine ⟨m2.tail (.sub s2 o x _ c h hx2 (by simp [hc]) (ht c rfl) (.asked hg ha)), ?_,
              fun c e => by simp at e⟩
            intro c' e
            cases e
            rw [has_iff, setSub_get, hx2]
            exact ⟨_, rfl, by simp [dictGet_set_same]⟩

theorem logicItem_spec (D : Design) (nat : Prop) (dsc : Nat → Prop) {o : Nat} {x : ObjS} (k : Key) (s : St)
    (hx : s.objs[o]? = some x) (hc : x.cls = .logicArray) :
    Moves D nat dsc s (logicItem D o x k s).2 ∧
    (∀ c, (logicItem D o x k s).1 = .ok c → Has (logicItem D o x k s).2 o k c) ∧
    (∀ c, dictGet x.subs k = some c → logicItem D o x k s = (.ok c, s)) := by
  unfold logicItem
  cases hg : dictGet x.subs k with
  | some c =>
    exact ⟨.refl s, fun c' e => by cases e; exact has_iff.2 ⟨x, hx, hg⟩, fun c' e => by cases e; rfl⟩
  | none =>
    match k with
    | .name n => exact ⟨.refl s, fun c e => by simp at e, fun c e => by simp at e⟩
    | .idx i =>
      simp only
      cases hb : getByIndex D x.hdl i with
      | error e => exact ⟨.refl s, fun c e => by simp at e, fun c e => by simp at e⟩
      | ok r =>
        cases r with
        | none => exact ⟨.refl s, fun c e => by simp at e, fun c e => by simp at e⟩
        | some h =>
          simp only
          have ha : answer D x.cls x.hdl (.idx i) = some h := by
            unfold getByIndex at hb
            split at hb
            · rename_i hr; simp only [Except.ok.injEq] at hb; simp [answer, hc, hb]; omega
            · cases hb
          refine ⟨.one (.logic s o x _ h hx hc hg ha), ?_, fun c e => by simp at e⟩
          intro c' e
          cases e
          have hx2 : (newLogic h s).2.objs[o]? = some x := push_old hx
          rw [has_iff, setSub_get, hx2]
          exact ⟨_, rfl, by simp [dictGet_set_same]⟩

theorem item_spec (D : Design) (dsc : Nat → Prop) {o : Nat} {x : ObjS} (k : Key) (s : St)
    (hx : s.objs[o]? = some x) :
    Moves D False dsc s (item D o x k s).2 ∧
    (∀ c, (item D o x k s).1 = .ok c → Has (item D o x k s).2 o k c) ∧
    (∀ c, x.cls = .module ∨ x.cls = .genArray ∨ x.cls = .array ∨ x.cls = .logicArray →
      dictGet x.subs k = some c → item D o x k s = (.ok c, s)) := by
  have hsub : ∀ e, Moves D False dsc s (orRaise e (getSub D o x k .auto s)).2 ∧
      (∀ c, (orRaise e (getSub D o x k .auto s)).1 = .ok c → Has (orRaise e (getSub D o x k .auto s)).2 o k c) ∧
      (∀ c, dictGet x.subs k = some c → orRaise e (getSub D o x k .auto s) = (.ok c, s)) := by
    intro e
    obtain ⟨m, hh, hk⟩ := getSub_spec D dsc k .auto s hx
    rw [orRaise_state]
    refine ⟨?_, fun c hc => hh c (orRaise_ok hc), fun c hc => by rw [hk c hc]; rfl⟩
    have : (Disc.auto = Disc.native) = False := by simp
    rw [this] at m; exact m
  unfold item
  match hc : x.cls with
  | .module => exact ⟨(hsub _).1, (hsub _).2.1, fun c _ => (hsub _).2.2 c⟩
  | .genArray => exact ⟨(hsub _).1, (hsub _).2.1, fun c _ => (hsub _).2.2 c⟩
  | .array =>
    have := arrayItem_spec D False dsc k s hx hc
    exact ⟨this.1, this.2.1, fun c _ => this.2.2 c⟩
  | .logicArray =>
    have := logicItem_spec D False dsc k s hx hc
    exact ⟨this.1, this.2.1, fun c _ => this.2.2 c⟩
  | .leaf => exact ⟨.refl s, fun c e => by simp at e, fun c e => by simp at e⟩
  | .unsupported => exact ⟨.refl s, fun c e => by simp at e, fun c e => by simp at e⟩

theorem Moves.weaken {nat nat' : Prop} {dsc dsc' : Nat → Prop} {s t : St} (hn : nat → nat')
    (hd : ∀ o, dsc o → dsc' o) (m : Moves D nat dsc s t) : Moves D nat' dsc' s t := by
  have hw : ∀ o x k h, Why D nat dsc o x k h → Why D nat' dsc' o x k h := by
    intro o x k h w
    cases w with
    | asked a b => exact .asked a b
    | native t n a b c d e => exact .native t n (hn a) b c d e
    | listed a b => exact .listed (hd _ a) b
  induction m with
  | refl => exact .refl _
  | tail _ m ih =>
    refine .tail ih ?_
    cases m with
    | create h a b => exact .create _ h a b
    | sub o x k c h a b d w => exact .sub _ o x k c h a b d (hw _ _ _ _ w)
    | logic o x k h a b c d => exact .logic _ o x k h a b c d
    | disc o a b => exact .disc _ o (hd _ a) b
    | count a => exact .count _ (hn a)

theorem discoverOne_moves (D : Design) (nat : Prop) (dsc : Nat → Prop) {o : Nat} {x y : ObjS} (s : St)
    (hy : s.objs[o]? = some y) (h1 : y.hdl = x.hdl) (h2 : y.cls = x.cls) (hd : dsc o)
    {g : Hdl} (hg : g ∈ D.children x.hdl) :
    Moves D nat dsc s (discoverOne D o x s g) := by
  unfold discoverOne
  cases hk : subKey D x.cls x.hdl g with
  | none => exact .refl s
  | some k =>
    simp only
    obtain ⟨m2, ht, he, hold⟩ := make_spec D nat dsc g s
    generalize make D g s = q at m2 ht he hold
    obtain ⟨q, s2⟩ := q
    match q with
    | .error e => exact m2
    | .ok c =>
      have hy2 : s2.objs[o]? = some y := hold o y hy
      refine m2.tail (.sub s2 o y k c g hy2 ?_ (ht c rfl) (.listed hd ⟨by rw [h1]; exact hg, by rw [h1, h2]; exact hk⟩))
      rw [h2]
      intro e; rw [e] at hk; simp [subKey] at hk

theorem fold_moves (D : Design) (nat : Prop) (dsc : Nat → Prop) {o : Nat} {x : ObjS} (hd : dsc o) :
    ∀ (l : List Hdl) (s : St), (∀ g ∈ l, g ∈ D.children x.hdl) →
      (∃ y, s.objs[o]? = some y ∧ y.hdl = x.hdl ∧ y.cls = x.cls) →
      Moves D nat dsc s (l.foldl (discoverOne D o x) s)
  | [], s, _, _ => .refl s
  | g :: l, s, hl, ⟨y, hy, h1, h2⟩ => by
    have m := discoverOne_moves D nat dsc s hy h1 h2 hd (hl g (by simp))
    obtain ⟨z, hz, e1, e2⟩ := m.later.obj o y hy
    exact m.trans (fold_moves D nat dsc hd l _ (fun g hg => hl g (by simp [hg]))
      ⟨z, hz, e1.trans h1, e2.trans h2⟩)

theorem Move.hasKey {s t : St} (m : Move D nat dsc s t) {o : Nat} {k : Key}
    (h : ∃ c, Has s o k c) : ∃ c, Has t o k c := by
  obtain ⟨c, h⟩ := h
  simp only [has_iff] at h ⊢
  obtain ⟨x, hx, hc⟩ := h
  cases m with
  | create g hn hk => exact ⟨c, x, push_old hx, hc⟩
  | sub p y j d g hy hcls ht hw =>
    rw [setSub_get, hx]
    by_cases hp : p = o
    · by_cases hj : j = k
      · exact ⟨d, _, rfl, by simp [hp, dictGet_set, hj]⟩
      · exact ⟨c, _, rfl, by simp [hp, dictGet_set, hj, hc]⟩
    · exact ⟨c, _, rfl, by simp [hp, hc]⟩
  | logic p y j g hy hcls hn ha =>
    have hx' : (newLogic g s).2.objs[o]? = some x := push_old hx
    rw [setSub_get, hx']
    by_cases hp : p = o
    · by_cases hj : j = k
      · exact ⟨_, _, rfl, by simp [hp, dictGet_set, hj]; rfl⟩
      · exact ⟨c, _, rfl, by simp [hp, dictGet_set, hj, hc]⟩
    · exact ⟨c, _, rfl, by simp [hp, hc]⟩
  | disc p _ _ =>
    rw [setDisc_get, hx]
    refine ⟨c, _, rfl, ?_⟩
    split <;> exact hc
  | count _ => exact ⟨c, x, hx, hc⟩

theorem Moves.hasKey {s t : St} (m : Moves D nat dsc s t) {o : Nat} {k : Key}
    (h : ∃ c, Has s o k c) : ∃ c, Has t o k c := by
  induction m with
  | refl => exact h
  | tail _ m ih => exact m.hasKey ih

theorem make_ok (D : Design) {h : Hdl} (s : St) (hk : D.kind h ≠ .unsupported) :
    ∃ c, (make D h s).1 = .ok c := by
  unfold make
  split
  · exact ⟨_, rfl⟩
  · simp [hk]

theorem discoverOne_has (D : Design) {o : Nat} {x y : ObjS} (s : St)
    (hy : s.objs[o]? = some y) {g : Hdl} {k : Key} (hk : subKey D x.cls x.hdl g = some k)
    (hs : D.kind g ≠ .unsupported) : ∃ c, Has (discoverOne D o x s g) o k c := by
  unfold discoverOne
  rw [hk]
  simp only
  obtain ⟨c, hc⟩ := make_ok D s hs
  obtain ⟨_, _, _, hold⟩ := make_spec D False (fun _ => False) g s
  generalize make D g s = q at hc hold
  obtain ⟨q, s2⟩ := q
  simp only at hc hold; subst hc
  refine ⟨c, ?_⟩
  rw [has_iff]
  simp only
  rw [setSub_get, hold o y hy]
  exact ⟨_, rfl, by simp [dictGet_set_same]⟩

theorem fold_has (D : Design) {o : Nat} {x : ObjS} :
    ∀ (l : List Hdl) (s : St), (∀ g ∈ l, g ∈ D.children x.hdl) →
      (∃ y, s.objs[o]? = some y ∧ y.hdl = x.hdl ∧ y.cls = x.cls) →
      ∀ g ∈ l, ∀ k, subKey D x.cls x.hdl g = some k → D.kind g ≠ .unsupported →
        ∃ c, Has (l.foldl (discoverOne D o x) s) o k c
  | [], s, _, _ => by simp
  | g :: l, s, hl, ⟨y, hy, h1, h2⟩ => by
    have m := discoverOne_moves D False (fun p => p = o) s hy h1 h2 rfl (hl g (by simp))
    obtain ⟨z, hz, e1, e2⟩ := m.later.obj o y hy
    have hz' : ∃ y, (discoverOne D o x s g).objs[o]? = some y ∧ y.hdl = x.hdl ∧ y.cls = x.cls :=
      ⟨z, hz, e1.trans h1, e2.trans h2⟩
    have mr := fold_moves D False (fun p => p = o) rfl l (discoverOne D o x s g)
      (fun g hg => hl g (by simp [hg])) hz'
    intro g' hg' k hk hs
    rcases List.mem_cons.1 hg' with e | e
    · subst e
      exact mr.hasKey (discoverOne_has D s hy hk hs)
    · exact fold_has D l _ (fun g hg => hl g (by simp [hg])) hz' g' e k hk hs

theorem discover_moves (D : Design) (nat : Prop) (dsc : Nat → Prop) {o : Nat} {x : ObjS} (s : St)
    (hx : s.objs[o]? = some x) (hd : dsc o) : Moves D nat dsc s (discover D o x s) := by
  unfold discover
  split
  · exact .refl s
  · have m := fold_moves D nat dsc hd (D.children x.hdl) s (fun _ h => h) ⟨x, hx, rfl, rfl⟩
    refine m.tail (.disc _ o hd ?_)
    intro y hy k c hl hk
    obtain ⟨z, hz, e1, e2⟩ := m.later.obj o x hx
    rw [hy] at hz; cases hz
    rw [Listed, e1, e2] at hl
    obtain ⟨d, hd⟩ := fold_has D (D.children x.hdl) s (fun _ h => h) ⟨x, hx, rfl, rfl⟩ c hl.1 k hl.2 hk
    rw [has_iff] at hd
    obtain ⟨w, hw, hw2⟩ := hd
    rw [hy] at hw; cases hw
    simp [hw2]

/-- A discovered object has all its listed children. -/
def Complete (D : Design) (s : St) : Prop :=
  ∀ (o : Nat) x, s.objs[o]? = some x → x.discovered = true → ∀ k c, Listed D x.cls x.hdl k c →
    D.kind c ≠ .unsupported → ∃ d, Has s o k d

theorem Move.complete {s t : St} (m : Move D nat dsc s t) (h : Complete D s) : Complete D t := by
  have mm := m
  intro o x hx hd k c hl hk
  have old : ∀ y, s.objs[o]? = some y → y.discovered = true → y.hdl = x.hdl → y.cls = x.cls →
      ∃ d, Has t o k d := by
    intro y hy hyd h1 h2
    exact mm.hasKey (h o y hy hyd k c (by rw [h1, h2]; exact hl) hk)
  cases m with
  | create g hn hk' =>
    rcases push_get hx with e | ⟨_, rfl⟩
    · exact old x e hd rfl rfl
    · simp at hd
  | sub p y j d g hy hcls ht hw =>
    rw [setSub_get] at hx
    obtain ⟨x0, hx0, rfl⟩ := Option.map_eq_some_iff.1 hx
    refine old x0 hx0 ?_ ?_ ?_ <;> (by_cases hp : p = o <;> simp_all)
  | logic p y j g hy hcls hn ha =>
    rw [setSub_get] at hx
    obtain ⟨x0, hx0, rfl⟩ := Option.map_eq_some_iff.1 hx
    rcases push_get hx0 with e | ⟨_, rfl⟩
    · refine old x0 e ?_ ?_ ?_ <;> (by_cases hp : p = o <;> simp_all)
    · by_cases hp : p = o <;> simp [hp] at hd
  | disc p hp0 hall =>
    rw [setDisc_get] at hx
    obtain ⟨x0, hx0, rfl⟩ := Option.map_eq_some_iff.1 hx
    by_cases hp : p = o
    · subst hp
      simp only [if_true] at hl
      have := hall x0 hx0 k c hl hk
      obtain ⟨d, hd'⟩ := Option.isSome_iff_exists.1 this
      exact mm.hasKey ⟨d, has_iff.2 ⟨x0, hx0, hd'⟩⟩
    · refine old x0 hx0 ?_ ?_ ?_ <;> simp_all
  | count _ => exact old x hx hd rfl rfl

theorem Moves.complete {s t : St} (m : Moves D nat dsc s t) (h : Complete D s) : Complete D t := by
  induction m with
  | refl => exact h
  | tail _ m ih => exact m.complete ih

theorem discover_discovered (D : Design) {o : Nat} {x : ObjS} (s : St) (hx : s.objs[o]? = some x) :
    ∃ y, (discover D o x s).objs[o]? = some y ∧ y.discovered = true ∧ y.hdl = x.hdl ∧ y.cls = x.cls := by
  have m := discover_moves D False (fun p => p = o) s hx rfl
  obtain ⟨y, hy, h1, h2⟩ := m.later.obj o x hx
  refine ⟨y, hy, ?_, h1, h2⟩
  unfold discover at hy
  split at hy
  · rename_i hd; rw [hx] at hy; cases hy; exact hd
  · rw [setDisc_get] at hy
    obtain ⟨x0, _, rfl⟩ := Option.map_eq_some_iff.1 hy
    simp

theorem items_moves (D : Design) (dsc : Nat → Prop) (o : Nat) :
    ∀ (l : List Int) (s : St),
      Moves D False dsc s (items D o (fun x k s => item D o x k s) l s).2
  | [], s => .refl s
  | i :: l, s => by
    unfold items
    cases hx : s.objs[o]? with
    | none => exact .refl s
    | some x =>
      simp only
      have m := (item_spec D dsc (.idx i) s hx).1
      generalize item D o x (.idx i) s = q at m
      obtain ⟨q, s2⟩ := q
      match q with
      | .error e => exact m
      | .ok c =>
        simp only
        have m2 := items_moves D dsc o l s2
        generalize items D o (fun x k s => item D o x k s) l s2 = r at m2
        obtain ⟨r, s3⟩ := r
        match r with
        | .error e => exact m.trans m2
        | .ok cs => exact m.trans m2

theorem getOp_state (D : Design) (o : Nat) (x : ObjS) (k : Key) (d : Disc) (s : St) :
    getOp D o x k d s = getSub D o x k d s ∧ (x.cls = .module ∨ x.cls = .genArray) ∨
    (getOp D o x k d s = (.error .attributeError, s) ∧ ¬ (x.cls = .module ∨ x.cls = .genArray)) := by
  unfold getOp
  cases x.cls <;> simp

theorem attr_spec (D : Design) (dsc : Nat → Prop) {o : Nat} {x : ObjS} (n : PyStr) (s : St)
    (hx : s.objs[o]? = some x) :
    Moves D False dsc s (attr D o x n s).2 ∧
    (∀ c, (attr D o x n s).1 = .ok c → Has (attr D o x n s).2 o (.name n) c) ∧
    (∀ c, x.cls = .module → n.head? ≠ some '_' → dictGet x.subs (.name n) = some c →
      attr D o x n s = (.ok c, s)) := by
  unfold attr
  obtain ⟨m, hh, hk⟩ := getSub_spec D dsc (.name n) .auto s hx
  have : (Disc.auto = Disc.native) = False := by simp
  rw [this] at m
  match hc : x.cls with
  | .module =>
    simp only
    split
    · rename_i hu
      exact ⟨.refl s, fun c e => by simp at e, fun c _ hu' => absurd hu hu'⟩
    · rw [orRaise_state]
      exact ⟨m, fun c hc => hh c (orRaise_ok hc), fun c _ _ hc => by rw [hk c hc]; rfl⟩
  | .genArray => exact ⟨.refl s, fun c e => by simp at e, fun c e => by simp at e⟩
  | .array => exact ⟨.refl s, fun c e => by simp at e, fun c e => by simp at e⟩
  | .logicArray => exact ⟨.refl s, fun c e => by simp at e, fun c e => by simp at e⟩
  | .leaf => exact ⟨.refl s, fun c e => by simp at e, fun c e => by simp at e⟩
  | .unsupported => exact ⟨.refl s, fun c e => by simp at e, fun c e => by simp at e⟩

theorem setAttr_state (D : Design) (o : Nat) (x : ObjS) (n : PyStr) (s : St) :
    (setAttr D o x n s).2 = (attr D o x n s).2 := by
  unfold setAttr
  generalize attr D o x n s = q
  obtain ⟨q, s2⟩ := q
  cases q with
  | ok c => rfl
  | error e => cases e <;> rfl

theorem step_moves (D : Design) (op : Op) (s : St) :
    Moves D (Native op) (Lists op) s (step D op s).2 := by
  unfold step
  match op with
  | .root h => exact (make_spec D _ _ h s).1
  | .get o k d =>
    simp only [Op.target]
    cases hx : s.objs[o]? with
    | none => exact .refl s
    | some x =>
      simp only [stepOn]
      rcases getOp_state D o x k d s with ⟨e, _⟩ | ⟨e, _⟩
      · rw [e]
        exact (getSub_spec D _ k d s hx).1.weaken (fun e => ⟨o, k, by rw [e]⟩) (fun _ h => h)
      · rw [e]; exact .refl s
  | .item o k =>
    simp only [Op.target]
    cases hx : s.objs[o]? with
    | none => exact .refl s
    | some x => exact (item_spec D _ k s hx).1.weaken False.elim (fun _ h => h)
  | .attr o n =>
    simp only [Op.target]
    cases hx : s.objs[o]? with
    | none => exact .refl s
    | some x => exact (attr_spec D _ n s hx).1.weaken False.elim (fun _ h => h)
  | .setAttr o n =>
    simp only [Op.target]
    cases hx : s.objs[o]? with
    | none => exact .refl s
    | some x =>
      simp only [stepOn, setAttr_state]
      exact (attr_spec D _ n s hx).1.weaken False.elim (fun _ h => h)
  | .iter o =>
    simp only [Op.target]
    cases hx : s.objs[o]? with
    | none => exact .refl s
    | some x =>
      have md := discover_moves D (Native (.iter o)) (Lists (.iter o)) s hx (.inl rfl)
      simp only [stepOn, iter]
      cases x.cls with
      | module => exact md
      | genArray => exact md.trans ((items_moves D _ o _ _).weaken False.elim (fun _ h => h))
      | array => exact (items_moves D _ o _ _).weaken False.elim (fun _ h => h)
      | logicArray => exact .refl s
      | leaf => exact .refl s
      | unsupported => exact .refl s
  | .keys o =>
    simp only [Op.target]
    cases hx : s.objs[o]? with
    | none => exact .refl s
    | some x =>
      have md := discover_moves D (Native (.keys o)) (Lists (.keys o)) s hx (.inr (.inl rfl))
      simp only [stepOn, keys]
      cases x.cls with
      | module => exact md
      | genArray => exact md
      | array => exact .refl s
      | logicArray => exact .refl s
      | leaf => exact .refl s
      | unsupported => exact .refl s
  | .len o =>
    simp only [Op.target]
    cases hx : s.objs[o]? with
    | none => exact .refl s
    | some x =>
      have md := discover_moves D (Native (.len o)) (Lists (.len o)) s hx (.inr (.inr rfl))
      simp only [stepOn, len]
      cases x.cls with
      | module => exact md
      | genArray => exact md
      | array => exact .refl s
      | logicArray => exact .refl s
      | leaf => exact .refl s
      | unsupported => exact .refl s

theorem run_moves (D : Design) : ∀ (ops : List Op) (s : St),
    Moves D (∃ op ∈ ops, Native op) (fun o => ∃ op ∈ ops, Lists op o) s (run D ops s).2
  | [], s => .refl s
  | op :: ops, s => by
    refine Moves.trans ((step_moves D op s).weaken (fun h => ⟨op, by simp, h⟩) (fun o h => ⟨op, by simp, h⟩))
      ((run_moves D ops _).weaken ?_ ?_)
    · rintro ⟨p, hp, h⟩; exact ⟨p, by simp [hp], h⟩
    · rintro o ⟨p, hp, h⟩; exact ⟨p, by simp [hp], h⟩

end Verif.Hier
