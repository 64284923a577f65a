import Verif.Lemmas.GpiStore
import Verif.Lemmas.GpiPath
/-!
# Handles are determined by their paths
-/
namespace Verif.Gpi

variable {c : Flavor} {V : Vpi}

/-- What every way of initialising keeps. -/
structure Named (o o' : Obj) (name full : Text) : Prop where
  full : o'.full = full
  name : o'.name = name
  type : o'.type = o.type
  impl : o'.impl = o.impl
  hdl : o'.hdl = o.hdl
  const : o'.const = o.const

theorem initSignal_named {t o o' name full} (h : initSignal V t o name full = some o') : Named o o' name full := by
  unfold initSignal at h
  dsimp only at h
  split at h
  · cases h; exact ⟨rfl, rfl, rfl, rfl, rfl, rfl⟩
  split at h
  · cases h; exact ⟨rfl, rfl, rfl, rfl, rfl, rfl⟩
  split at h
  · cases h; exact ⟨rfl, rfl, rfl, rfl, rfl, rfl⟩
  split at h
  · split at h
    · split at h
      · cases h; exact ⟨rfl, rfl, rfl, rfl, rfl, rfl⟩
      · cases h
      · split at h <;> (cases h; exact ⟨rfl, rfl, rfl, rfl, rfl, rfl⟩)
    · cases h; exact ⟨rfl, rfl, rfl, rfl, rfl, rfl⟩
  · cases h; exact ⟨rfl, rfl, rfl, rfl, rfl, rfl⟩

theorem initArray_named {o o' name full} (h : initArray c V o name full = some o') : Named o o' name full := by
  unfold initArray at h
  split at h
  · cases h
  · dsimp only at h
    split at h
    · cases h
    · cases h; exact ⟨rfl, rfl, rfl, rfl, rfl, rfl⟩

/-- The ways an object is made. -/
inductive Made (c : Flavor) (V : Vpi) (k : Nat) (h : H) (name full : Text) : Obj → Prop
  | ok (o o' : Obj) (hn : Named o o' name full) (hi : o.impl = k) (hh : o.hdl = h) (ht : o.type ≠ .package) :
      Made c V k h name full o'
  | failed (o : Obj) (hf : o.full = unknownName) (hi : o.impl = k) (hh : o.hdl = h) (ht : o.type ≠ .package) :
      Made c V k h name full o

theorem gpiType_package {t : VType} (n v) (h : t ≠ .package) : gpiType t n v ≠ .package := by
  cases t <;> simp only [gpiType] <;> first
    | (split <;> simp)
    | exact absurd rfl h
    | simp

theorem constGType_package (t : ConstType) : constGType t ≠ .package := by cases t <;> simp [constGType]

theorem made_getD {k h name full} {x : Option Obj} {o : Obj} (hi : o.impl = k) (hh : o.hdl = h)
    (ht : o.type ≠ .package) (hf : o.full = unknownName) (hx : ∀ o', x = some o' → Named o o' name full) :
    Made c V k h name full (x.getD o) := by
  cases hx' : x with
  | none => exact .failed _ hf hi hh ht
  | some o' => exact .ok o o' (hx o' hx') hi hh ht

theorem made_refl {k h name full} {o : Obj} (hf : o.full = full) (hn : o.name = name) (hi : o.impl = k)
    (hh : o.hdl = h) (ht : o.type ≠ .package) : Made c V k h name full o :=
  .ok o o ⟨hf, hn, rfl, rfl, rfl, rfl⟩ hi hh ht

theorem createObj_made {k h name full o} (e : createObj c V k h name full = some o) : Made c V k h name full o := by
  unfold createObj at e
  split at e
  · cases e
  · rename_i t ht
    split at e
    case h_25 | h_26 =>
      cases e
      exact made_getD rfl rfl (constGType_package _) rfl fun o' h' => initSignal_named h'
    case h_27 | h_28 | h_29 | h_30 | h_31 =>
      cases e
      exact made_getD rfl rfl (by dsimp only; apply gpiType_package; simp) rfl fun o' h' => initArray_named h'
    case h_32 | h_33 | h_34 | h_35 =>
      split at e
      · cases e
        exact made_getD rfl rfl (by simp) rfl fun o' h' => initSignal_named h'
      · cases e
        exact made_refl rfl rfl rfl rfl (by dsimp only; apply gpiType_package; simp)
    case h_36 | h_37 | h_38 | h_39 | h_40 | h_41 | h_42 | h_43 =>
      split at e
      · cases e
        exact made_refl rfl rfl rfl rfl (by simp)
      · cases e
        exact made_refl rfl rfl rfl rfl (by dsimp only; apply gpiType_package; simp)
    case h_44 | h_45 | h_46 => cases e
    all_goals
      cases e
      exact made_getD rfl rfl (by dsimp only; apply gpiType_package; simp) rfl fun o' h' => initSignal_named h'

theorem Made.full {k h name full o} (m : Made c V k h name full o) (hu : o.full ≠ unknownName) : o.full = full := by
  cases m with
  | ok o1 _ hn => exact hn.full
  | failed _ hf => exact absurd hf hu

theorem Made.impl {k h name full o} (m : Made c V k h name full o) : o.impl = k := by
  cases m with
  | ok o1 _ hn hi => rw [hn.impl, hi]
  | failed _ hf hi => exact hi

theorem Made.type {k h name full o} (m : Made c V k h name full o) : o.type ≠ .package := by
  cases m with
  | ok o1 _ hn hi hh ht => rw [hn.type]; exact ht
  | failed _ hf hi hh ht => exact ht

theorem vpiByName_made {k n p o} (h : vpiByName c V k n p = some o) : ∃ h', Made c V k h' n (p.full ++ delim p ++ n) o := by
  unfold vpiByName at h
  split at h
  · cases h
  · exact ⟨_, createObj_made h⟩

theorem vpiByIndex_made {k i p o} (h : vpiByIndex c V k i p = some o) :
    ∃ h', Made c V k h' (p.name ++ idxText i) (p.full ++ idxText i) o := by
  unfold vpiByIndex at h
  split at h
  · cases h
  · exact ⟨_, createObj_made h⟩

theorem vpiRoot_eq {k n o} (h : vpiRoot V k n = some o) :
    o.impl = k ∧ o.type = .module ∧ o.name = o.full ∧ ∀ m, n = some m → o.full = m := by
  unfold vpiRoot at h
  dsimp only at h
  split at h
  · cases h
  · rename_i x hx
    cases h
    refine ⟨rfl, rfl, rfl, ?_⟩
    rintro m rfl
    have := List.find?_some hx
    simp at this
    exact this.2.symm

theorem package_item {k o} (h : Item.native o ∈ packageItems V k) : o.impl = k ∧ o.type = .package := by
  unfold packageItems at h
  rw [List.mem_filterMap] at h
  obtain ⟨x, _, hx⟩ := h
  rw [Option.map_eq_some_iff] at hx
  obtain ⟨n, _, hx⟩ := hx
  split at hx
  · cases hx; exact ⟨rfl, rfl⟩
  · cases hx

theorem direct_package {n o} (h : direct c V (.package n) = some o) :
    o.full = n ++ [58, 58] ∧ Item.native o ∈ packageItems V 0 := by
  rw [direct] at h
  obtain ⟨x, hx, h⟩ := List.exists_of_findSome?_eq_some h
  split at h
  · split at h
    · cases h; rename_i e; exact ⟨e, hx⟩
    · cases h
  · cases h

/-- The kind of path shows in the type, and the object belongs to the implementation. -/
theorem direct_type {p o} (h : direct c V p = some o) : (o.type = .package ↔ p.isPackage = true) ∧ o.impl = 0 := by
  cases p with
  | root n =>
    obtain ⟨h1, h2, _⟩ := vpiRoot_eq h
    rw [h2]; simp [Path.isPackage, h1]
  | package n =>
    obtain ⟨h1, h2⟩ := package_item (direct_package h).2
    simp [h1, h2, Path.isPackage]
  | child p n =>
    rw [direct, Option.bind_eq_some_iff] at h
    obtain ⟨_, _, h⟩ := h
    split at h
    · cases h
    obtain ⟨_, m⟩ := vpiByName_made h
    simp [m.impl, m.type, Path.isPackage]
  | elem p i =>
    rw [direct, Option.bind_eq_some_iff] at h
    obtain ⟨_, _, h⟩ := h
    obtain ⟨_, m⟩ := vpiByIndex_made h
    simp [m.impl, m.type, Path.isPackage]

theorem delim_direct {p o} (h : direct c V p = some o) : delim o = if p.isPackage then [] else [dot] := by
  unfold delim
  have := (direct_type h).1
  by_cases hp : p.isPackage = true
  · rw [if_pos (this.mpr hp), if_pos hp]
  · rw [if_neg (fun h => hp (this.mp h)), if_neg hp]

/-- The full name of a child. -/
theorem full_child {p n po o} (hp : direct c V p = some po) (hf : po.full = p.text)
    (h : vpiByName c V 0 n po = some o) (hu : o.full ≠ unknownName) : o.full = (Path.child p n).text := by
  obtain ⟨_, m⟩ := vpiByName_made h
  rw [m.full hu, delim_direct hp, hf, Path.text]

theorem full_elem {p i po o} (hf : po.full = p.text)
    (hi : isInt32 i = true) (h : vpiByIndex c V 0 i po = some o) (hu : o.full ≠ unknownName) :
    o.full = (Path.elem p i).text := by
  obtain ⟨_, m⟩ := vpiByIndex_made h
  rw [m.full hu, hf, Path.text, idxText_eq hi]

end Verif.Gpi
