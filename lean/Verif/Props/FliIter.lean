import Verif.Spec.FliIter
import Verif.Lemmas.GpiListing
/-!
# C170: listing what is below an object of the FLI
-/
namespace Verif

open FliIter Spec.FliIter
open Vhpi (H GType beforeLast decInt_chars idxText_eq)
open Gpi (decInt)
open Spec (VhdlInt fliFull indexSuffix FliLoop)

namespace FliIterL

/-- What an iterator has still to return. -/
def left (F : Sim) (p : Fli.Obj) (it : It) : List (Otm × H) :=
  (it.handles.filter (passes F p)).map (it.cur, ·) ++
    (it.rest.filter (!skips p ·)).flatMap fun o => ((populate F p o).filter (passes F p)).map (o, ·)

def all (F : Sim) (p : Fli.Obj) (os : List Otm) : List (Otm × H) :=
  (os.filter (!skips p ·)).flatMap fun o => ((populate F p o).filter (passes F p)).map (o, ·)

theorem pick_none {F : Sim} {p : Fli.Obj} {hs : List H} (h : pick F p hs = none) : hs.filter (passes F p) = [] := by
  induction hs with
  | nil => rfl
  | cons a t ih =>
    unfold pick at h
    split at h
    · cases h
    · rename_i hp; simp [hp, ih h]

theorem pick_some {F : Sim} {p : Fli.Obj} {hs r : List H} {x : H} (h : pick F p hs = some (x, r)) :
    hs.filter (passes F p) = x :: r.filter (passes F p) := by
  induction hs with
  | nil => cases h
  | cons a t ih =>
    unfold pick at h
    split at h
    · rename_i hp; cases h; simp [hp]
    · rename_i hp; simp [hp, ih h]

theorem advance_eq {F : Sim} {p : Fli.Obj} (os : List Otm) :
    match advance F p os with
    | none => all F p os = []
    | some (h, it) => all F p os = (it.cur, h) :: left F p it := by
  induction os with
  | nil => rfl
  | cons o rest ih =>
    unfold advance
    by_cases hs : skips p o = true
    · simp only [hs, if_true]
      have : all F p (o :: rest) = all F p rest := by simp [all, hs]
      rw [this]; exact ih
    · simp only [hs, Bool.false_eq_true, if_false]
      have e : all F p (o :: rest) = ((populate F p o).filter (passes F p)).map (o, ·) ++ all F p rest := by
        simp [all, hs]
      rw [e]
      cases hp : pick F p (populate F p o) with
      | none => simp only [pick_none hp, List.map_nil, List.nil_append]; exact ih
      | some x =>
        obtain ⟨h, hs⟩ := x
        simp [pick_some hp, left, all]

theorem nextObj_eq {F : Sim} {p : Fli.Obj} (it : It) :
    match nextObj F p it with
    | none => left F p it = []
    | some (h, it') => left F p it = (it'.cur, h) :: left F p it' := by
  unfold nextObj
  cases hp : pick F p it.handles with
  | none =>
    have e : left F p it = all F p it.rest := by simp [left, all, pick_none hp]
    simp only [e]
    exact advance_eq it.rest
  | some x =>
    obtain ⟨h, hs⟩ := x
    simp [left, pick_some hp]

theorem calls_eq {F : Sim} {p : Fli.Obj} : ∀ (n : Nat) (it : It),
    calls F p n (some it) = ((left F p it).map fun e => emit F p e.1 e.2).take n
  | 0, _ => by simp [calls]
  | n + 1, it => by
    have h := nextObj_eq (F := F) (p := p) it
    unfold calls next
    cases e : nextObj F p it with
    | none => rw [e] at h; simp only at h; simp [h, e]
    | some x =>
      obtain ⟨a, it'⟩ := x
      rw [e] at h; simp only at h
      simp [h, e, calls_eq n it']

theorem start_eq {F : Sim} {p : Fli.Obj} (os : List Otm) :
    match start F p os with
    | none => all F p os = []
    | some it => all F p os = left F p it := by
  induction os with
  | nil => rfl
  | cons o rest ih =>
    unfold start
    by_cases hs : skips p o = true
    · simp only [hs, if_true]
      have : all F p (o :: rest) = all F p rest := by simp [all, hs]
      rw [this]; exact ih
    · simp only [hs, Bool.false_eq_true, if_false]
      cases hp : populate F p o with
      | nil =>
        have : all F p (o :: rest) = all F p rest := by simp [all, hs, hp]
        rw [this]; exact ih
      | cons h t => simp [all, left, hs, hp]

theorem listed_eq (F : Sim) (p : Fli.Obj) (n : Nat) :
    listed F p n = ((all F p ((iterateOver (F.pkind p.hdl)).getD [])).map fun e => emit F p e.1 e.2).take n := by
  unfold listed mk
  have hc : ∀ n, calls F p n none = [] := fun n => by cases n <;> rfl
  cases e : iterateOver (F.pkind p.hdl) with
  | none => simp [hc, all]
  | some os =>
    have h := start_eq (F := F) (p := p) os
    simp only [Option.getD_some]
    cases e : start F p os with
    | none => rw [e] at h; simp only at h; simp [h, hc]
    | some it => rw [e] at h; simp only at h; rw [h]; exact calls_eq n it

theorem map_names {α β γ : Type} {f : α → Option β} {g : α → γ} {k : β → γ} : ∀ {l : List α},
    (∀ h ∈ l, ∃ n, f h = some n ∧ g h = k n) → l.map g = (l.filterMap f).map k
  | [], _ => rfl
  | a :: t, H => by
    obtain ⟨n, h1, h2⟩ := H a (by simp)
    simp [h1, h2, map_names (l := t) fun h hh => H h (by simp [hh])]

theorem cut_block {label : Text} (i : Int) : Gpi.cutLast 40 (label ++ indexSuffix [i]) = some (label, indexSuffix [i]) := by
  have h40 : (40 : Nat) ∉ decInt i ++ [41] := by
    simp only [List.mem_append, List.mem_singleton]
    rintro (h | h)
    · have := decInt_chars h; omega
    · omega
  have e : indexSuffix [i] = 40 :: (decInt i ++ [41]) := by simp [indexSuffix]
  rw [e]
  exact Gpi.cutLast_app label h40

/-- The entry for something in a module that is looked up under a name of its own. -/
theorem emit_plain {F : Sim} {p : Fli.Obj} {o : Otm} {h : H} {n : Text} (hp : p.type = .module)
    (ho : o = .constants ∨ o = .signals ∨ o = .regions) (hn : simName F o h = some n) (hg : F.forGen h = false)
    (hf : Fli.find F.toFli (fliFull p n) true true true = some h) : emit F p o h = looked F p n := by
  have e1 : Fli.fliByName F.toFli n p = Fli.createObj F.toFli h n (fliFull p n) := by
    unfold Fli.fliByName
    rw [fli_child hp]
    simp only [hf, hg, Bool.false_eq_true, if_false]
  unfold looked
  rw [e1]
  unfold emit
  have e2 : (if p.full = [47] then (n, p.full ++ n) else (n, p.full ++ [47] ++ n)) = (n, fliFull p n) := by
    unfold fliFull; split <;> rfl
  rcases ho with rfl | rfl | rfl <;>
    simp [hn, hg, hp] <;> split <;> simp_all [fliFull] <;> rfl

theorem emit_loop {F : Sim} {p : Fli.Obj} {h : H} {label : Text} {i : Int} (hp : p.type = .module) (hh : h ∈ F.lower p.hdl)
    (hg : F.forGen h = true) (hn : F.regionName h = label ++ indexSuffix [i]) (hl : label ≠ []) (hpl : 40 ∉ label)
    (hw : (F.region (fliFull p label) = none ∧ F.sig (fliFull p label) = none ∧ F.var (fliFull p label) = none) ∨
      ∃ r, F.region (fliFull p label) = some r ∧ F.forGen r) : emit F p .regions h = looked F p label := by
  have hb : beforeLast [40] label = label := by
    unfold beforeLast; rw [rfind_none hpl]
  have e1 : Fli.fliByName F.toFli label p = Fli.createObj F.toFli p.hdl label (fliFull p label) := by
    unfold Fli.fliByName
    rw [fli_child hp]
    rcases hw with ⟨w1, w2, w3⟩ | ⟨r, w1, w2⟩
    · simp only [Fli.find, w1, w2, w3, if_true, Bool.true_and]
      rw [if_pos]
      rw [List.any_eq_true]
      refine ⟨h, hh, ?_⟩
      simp only [hg, Bool.true_and, Fli.sameLabel, hn, fli_before, hb]
      simp
    · simp [Fli.find, w1, w2]
  unfold looked
  rw [e1]
  unfold emit
  simp only [simName, hn, hg, hp, cut_block, hl, if_false, ne_eq, true_and, and_true, if_true, reduceCtorEq, not_false_eq_true, or_self]
  by_cases h47 : p.full = [47] <;> simp only [h47, if_true, if_false, fliFull] <;> rfl

theorem all_module {F : Sim} {p : Fli.Obj} (hp : p.type = .module) :
    all F p [.constants, .signals, .regions] = (F.consts p.hdl).map (Otm.constants, ·) ++ ((F.signals p.hdl).map (Otm.signals, ·) ++
      (F.lower p.hdl).map (Otm.regions, ·)) := by
  have hk : ∀ o, skips p o = false := by intro o; unfold skips; rw [hp]; rfl
  have hpa : passes F p = fun _ => true := by funext h; unfold passes; rw [hp]; rfl
  have hfil : ∀ l : List H, l.filter (passes F p) = l := by intro l; rw [hpa]; simp
  simp [all, hk, hfil, populate]

theorem loop_obj {F : Fli.Fli} {p : Fli.Obj} {label : Text} {els : List (Int × H)} (L : FliLoop F p label els)
    (ho : label ≠ F.regionName p.hdl) : Fli.fliByName F label p = some
      { hdl := p.hdl, type := .genArray, name := label, full := fliFull p label, numElems := 1, indexable := true } := by
  obtain ⟨p1, p2, p3⟩ := L.parent
  unfold Fli.fliByName
  rw [fli_child p1]
  rcases L.whole with ⟨w1, w2, w3⟩ | ⟨r, w1, w2⟩
  rotate_left
  · simp [Fli.find, w1, w2, Fli.createObj, p2, p3, ho]
  simp only [Fli.find, w1, w2, w3, if_true, Bool.true_and]
  obtain ⟨e, he⟩ := List.exists_mem_of_ne_nil _ L.blocks
  obtain ⟨r1, r2, r3, r4⟩ := L.region e he
  rw [if_pos]
  · simp [Fli.createObj, p2, p3, ho]
  · rw [List.any_eq_true]
    refine ⟨e.2, L.listed e he, ?_⟩
    simp only [r1, Bool.true_and, Fli.sameLabel, r4, fli_before]
    rw [show beforeLast [40] label = label by unfold beforeLast; rw [L.plain]]
    simp

end FliIterL

open FliIterL

/-- C170: a listing of a region gives its constants, its signals and its regions, in this order and that of the
simulator, each as a lookup of its name gives it; loops are listed under their label, once for every block (they are
one object). -/
theorem C170_scope {F : Sim} {p : Fli.Obj} (S : Scope F p) (n : Nat) :
    listed F p n = ((names F p).map (looked F p)).take n := by
  rw [listed_eq, S.parent.2]
  simp only [iterateOver, Option.getD_some, all_module S.parent.1, List.map_append, List.map_map, names]
  have hp := S.parent.1
  have h1 : (F.consts p.hdl).map ((fun e => emit F p e.1 e.2) ∘ (Otm.constants, ·)) =
      ((F.consts p.hdl).filterMap F.varName).map (looked F p) := by
    refine map_names fun h hh => ?_
    obtain ⟨hg, m, a, b, c, d⟩ := S.const h hh
    exact ⟨m, a, emit_plain hp (Or.inl rfl) a hg (by simp [Fli.find, b, c, d])⟩
  have h2 : (F.signals p.hdl).map ((fun e => emit F p e.1 e.2) ∘ (Otm.signals, ·)) =
      ((F.signals p.hdl).filterMap F.sigName).map (looked F p) := by
    refine map_names fun h hh => ?_
    obtain ⟨hg, m, a, b, c⟩ := S.signal h hh
    exact ⟨m, a, emit_plain hp (Or.inr (Or.inl rfl)) a hg (by simp [Fli.find, b, c])⟩
  have h3 : (F.lower p.hdl).map ((fun e => emit F p e.1 e.2) ∘ (Otm.regions, ·)) =
      (F.lower p.hdl).map (looked F p ∘ shown F) := by
    refine List.map_congr_left fun h hh => ?_
    simp only [Function.comp, shown]
    cases hg : F.forGen h with
    | false =>
      exact emit_plain hp (Or.inr (Or.inr rfl)) rfl hg (by simp [Fli.find, S.region h hh hg])
    | true =>
      obtain ⟨label, i, a, b, c, d⟩ := S.loop h hh hg
      rw [emit_loop hp hh hg a b c d, if_pos rfl, a, fli_before]
  rw [h1, h2, h3, List.append_assoc]

/-- A design: region `/top` with the constant `c`, the signals `s` and `r` (a record with the fields `a` and `\\x.y\\`), the
blocks `gen(1)` and `gen(2)` of a loop and the region `sub`. -/
def exSim : Sim where
  vhdl _ := true
  value h := h == 3 || h == 4 || h == 5 || h == 6 || h == 7
  signal h := h == 3 || h == 5 || h == 6 || h == 7
  const h := h == 4
  forGen h := h == 1 || h == 2
  ty h := if h = 5 then .record else .scalar
  regionName h := if h = 0 then Fli.str "top" else if h = 1 then Fli.str "gen(1)" else if h = 2 then Fli.str "gen(2)" else Fli.str "sub"
  fullName _ := []
  region t := if t = Fli.str "/top/gen(1)" then some 1 else if t = Fli.str "/top/gen(2)" then some 2
    else if t = Fli.str "/top/sub" then some 8 else none
  sig t := if t = Fli.str "/top/s" then some 3 else if t = Fli.str "/top/r" then some 5
    else if t = Fli.str "/top/r.a" then some 6 else if t = Fli.str "/top/r.\\x.y\\" then some 7 else none
  var t := if t = Fli.str "/top/c" then some 4 else none
  lower h := if h = 0 then [1, 2, 8] else []
  subs h := if h = 5 then [6, 7] else []
  tops := [0]
  pkind h := if h = 0 ∨ h = 1 ∨ h = 2 ∨ h = 8 then .region else if h = 4 then .variable else .signal
  consts h := if h = 0 then [4] else []
  signals h := if h = 0 then [3, 5] else []
  varName h := if h = 4 then some (Fli.str "c") else none
  sigName h := if h = 3 then some (Fli.str "s") else if h = 5 then some (Fli.str "r") else none
  partName h := if h = 6 then some (Fli.str "r.a") else if h = 7 then some (Fli.str "r.\\x.y\\") else none

/-- The record. -/
def exRec : Fli.Obj := { hdl := 5, type := .structure, name := Fli.str "r", full := Fli.str "/top/r" }

theorem exScope : Scope exSim exFliTop where
  parent := by decide +kernel
  const := by
    intro h hh
    have : h = 4 := by simpa [exSim, exFliTop] using hh
    subst this
    exact ⟨rfl, Fli.str "c", by decide +kernel⟩
  signal := by
    intro h hh
    have : h = 3 ∨ h = 5 := by simpa [exSim, exFliTop] using hh
    rcases this with rfl | rfl
    · exact ⟨rfl, Fli.str "s", by decide +kernel⟩
    · exact ⟨rfl, Fli.str "r", by decide +kernel⟩
  region := by
    intro h hh
    have : h = 1 ∨ h = 2 ∨ h = 8 := by simpa [exSim, exFliTop] using hh
    rcases this with rfl | rfl | rfl <;> decide +kernel
  loop := by
    intro h hh hg
    have : h = 1 ∨ h = 2 ∨ h = 8 := by simpa [exSim, exFliTop] using hh
    rcases this with rfl | rfl | rfl
    · exact ⟨Fli.str "gen", 1, by decide +kernel, by decide +kernel, by decide +kernel, Or.inl (by decide +kernel)⟩
    · exact ⟨Fli.str "gen", 2, by decide +kernel, by decide +kernel, by decide +kernel, Or.inl (by decide +kernel)⟩
    · exact absurd hg (by decide +kernel)

example : Scope exSim exFliTop ∧
    names exSim exFliTop = [Fli.str "c", Fli.str "s", Fli.str "r", Fli.str "gen", Fli.str "gen", Fli.str "sub"] ∧
    (listed exSim exFliTop 10).length = 6 :=
  ⟨exScope, by decide +kernel, by decide +kernel⟩

/-- C170: nothing that can be looked up is missing from the listing. -/
theorem C170_complete {F : Sim} {p : Fli.Obj} (S : Scope F p) (C : Closed F p) {n : Text} {o : Fli.Obj}
    (hn : 40 ∉ n) (h : Fli.fliByName F.toFli n p = some o) : ∃ k, .native o ∈ listed F p k := by
  refine ⟨(names F p).length, ?_⟩
  rw [C170_scope S, List.take_of_length_le (by simp), List.mem_map]
  refine ⟨n, ?_, by simp [looked, h]⟩
  unfold Fli.fliByName at h
  rw [fli_child S.parent.1] at h
  simp only [names, List.mem_append, List.mem_filterMap, List.mem_map]
  cases e1 : F.region (fliFull p n) with
  | some x => exact Or.inr ⟨x, C.region n x e1⟩
  | none =>
    cases e2 : F.sig (fliFull p n) with
    | some x => exact Or.inl (Or.inr ⟨x, C.signal n x e2⟩)
    | none =>
      cases e3 : F.var (fliFull p n) with
      | some x => exact Or.inl (Or.inl ⟨x, C.var n x e3⟩)
      | none =>
        simp only [Fli.find, e1, e2, e3, if_true, Bool.true_and] at h
        split at h
        · rename_i ha
          obtain ⟨r, h1, h2⟩ := List.any_eq_true.1 ha
          refine Or.inr ⟨r, h1, ?_⟩
          simp only [Bool.and_eq_true, Fli.sameLabel, beq_iff_eq] at h2
          unfold shown
          rw [if_pos h2.1, h2.2]
          unfold beforeLast; rw [rfind_none hn]
        · cases h

/-- The names below `/top` that the design of the example knows are those it lists. -/
def exClosed : Sim := { exSim with
  region := fun t => if t = Fli.str "/top/sub" then some 8 else none
  lower := fun h => if h = 0 then [8] else []
  sig := fun t => if t = Fli.str "/top/s" then some 3 else none
  signals := fun h => if h = 0 then [3] else [] }

example : Scope exClosed exFliTop ∧ Closed exClosed exFliTop ∧ 40 ∉ Fli.str "s" ∧
    (Fli.fliByName exClosed.toFli (Fli.str "s") exFliTop).map (·.hdl) = some 3 := by
  have cancel : ∀ {n m : Text}, fliFull exFliTop n = Fli.str "/top/" ++ m → n = m := by
    intro n m h
    have e : fliFull exFliTop n = Fli.str "/top/" ++ n := by
      have h1 : exFliTop.full ≠ [47] := by decide +kernel
      have h2 : Fli.str "/top/" = exFliTop.full ++ [47] := by decide +kernel
      unfold fliFull; rw [if_neg h1, h2]
    rw [e] at h
    exact List.append_cancel_left h
  refine ⟨⟨by decide +kernel, ?_, ?_, ?_, ?_⟩, ⟨?_, ?_, ?_⟩, by decide +kernel, by decide +kernel⟩
  · intro h hh
    have : h = 4 := by simpa [exClosed, exSim, exFliTop] using hh
    subst this
    exact ⟨rfl, Fli.str "c", by decide +kernel⟩
  · intro h hh
    have : h = 3 := by simpa [exClosed, exFliTop] using hh
    subst this
    exact ⟨rfl, Fli.str "s", by decide +kernel⟩
  · intro h hh
    have : h = 8 := by simpa [exClosed, exFliTop] using hh
    subst this
    decide +kernel
  · intro h hh hg
    have : h = 8 := by simpa [exClosed, exFliTop] using hh
    subst this
    exact absurd hg (by decide +kernel)
  · intro n h hh
    simp only [exClosed] at hh
    split at hh
    · rename_i e
      cases hh
      rw [show n = Fli.str "sub" from cancel (e.trans (by decide +kernel))]
      decide +kernel
    · cases hh
  · intro n h hh
    simp only [exClosed] at hh
    split at hh
    · rename_i e
      cases hh
      rw [show n = Fli.str "s" from cancel (e.trans (by decide +kernel))]
      decide +kernel
    · cases hh
  · intro n h hh
    simp only [exClosed, exSim] at hh
    split at hh
    · rename_i e
      cases hh
      rw [show n = Fli.str "c" from cancel (e.trans (by decide +kernel))]
      decide +kernel
    · cases hh

/-- C170, full statement for loops: a generate loop lists its blocks, each as indexing gives it, and nothing else. -/
def C170_loop_full : Prop := ∀ (F : Sim) (p : Fli.Obj) (label : Text) (els : List (Int × H)), FliLoop F.toFli p label els →
  F.pkind p.hdl = .region → label ≠ [] → (∀ e ∈ els, VhdlInt e.1 ∧ els.find? (·.1 = e.1) = some e) →
  ((F.lower p.hdl).filter fun r => F.forGen r && beforeLast [40] (F.regionName r) == label) = els.map (·.2) →
  ∃ (o : Fli.Obj) (bs : List Fli.Obj), Fli.fliByName F.toFli label p = some o ∧ o.type = .genArray ∧
    (∀ n, listed F o n = (bs.map Item.native).take n) ∧ bs.map some = els.map fun e => Fli.fliByIndex F.toFli e.1 o

/-- C170: loops whose label is not the name of the region around them. -/
theorem C170_loop_partial {F : Sim} {p : Fli.Obj} {label : Text} {els : List (Int × H)} (L : FliLoop F.toFli p label els)
    (ho : label ≠ F.regionName p.hdl) (hk : F.pkind p.hdl = .region) (hl : label ≠ [])
    (hi : ∀ e ∈ els, VhdlInt e.1 ∧ els.find? (·.1 = e.1) = some e)
    (hb : ((F.lower p.hdl).filter fun r => F.forGen r && beforeLast [40] (F.regionName r) == label) = els.map (·.2)) :
    ∃ (o : Fli.Obj) (bs : List Fli.Obj), Fli.fliByName F.toFli label p = some o ∧ o.type = .genArray ∧
      (∀ n, listed F o n = (bs.map Item.native).take n) ∧
      bs.map some = els.map fun e => Fli.fliByIndex F.toFli e.1 o := by
  have hlb : beforeLast [40] label = label := by unfold beforeLast; rw [L.plain]
  have hf : fliFull p label ≠ [47] := by
    unfold fliFull
    split
    · rename_i h; rw [h]; simpa using hl
    · intro h
      have h1 := congrArg List.length h
      have h2 : label.length ≠ 0 := fun h => hl (List.length_eq_zero_iff.1 h)
      rw [List.length_append, List.length_append] at h1
      simp only [List.length_singleton] at h1
      omega
  refine ⟨{ hdl := p.hdl, type := .genArray, name := label, full := fliFull p label, numElems := 1, indexable := true },
    els.map fun e => { hdl := e.2, type := .module, name := label ++ indexSuffix [e.1], full := fliFull p label ++ indexSuffix [e.1], numElems := 1 },
    loop_obj L ho, rfl, ?_, ?_⟩
  · intro n
    rw [listed_eq]
    simp only [hk, iterateOver, Option.getD_some]
    have hall : all F { hdl := p.hdl, type := .genArray, name := label, full := fliFull p label, numElems := 1, indexable := true }
        [.constants, .signals, .regions] = els.map fun e => (Otm.regions, e.2) := by
      have : (fun r => F.forGen r && beforeLast [40] (F.regionName r) == label) = passes F { hdl := p.hdl, type := .genArray, name := label, full := fliFull p label, numElems := 1, indexable := true } := by
        funext r
        simp only [passes, if_true, Fli.sameLabel, hlb]
      rw [this] at hb
      have hs : ∀ o', skips { hdl := p.hdl, type := .genArray, name := label, full := fliFull p label, numElems := 1, indexable := true } o' = (o' != .regions) := fun o' => rfl
      unfold all
      simp only [hs]
      change (((F.lower p.hdl).filter _).map _) ++ [] = _
      rw [hb]; simp
    rw [hall, List.map_map, List.map_map]
    congr 1
    refine List.map_congr_left fun e he => ?_
    obtain ⟨r1, r2, r3, r4⟩ := L.region e he
    simp only [Function.comp]
    unfold emit
    simp [simName, r4, hf, cut_block, Fli.createObj, r2, r3]
  · rw [List.map_map]
    refine List.map_congr_left fun e he => ?_
    obtain ⟨r1, r2, r3, r4⟩ := L.region e he
    have := L.one e.1
    rw [(hi e he).2] at this
    simp only [Function.comp, Fli.fliByIndex, idxText_eq (hi e he).1, this, Option.map_some]
    simp [Fli.createObj, r2, r3, r4]

/-- The design of `C125_fli_loop_partial` with what an iterator asks for. -/
def exLoopSim : Sim := { exFli with
  pkind := fun _ => .region, consts := fun _ => [], signals := fun _ => [], varName := fun _ => none, sigName := fun _ => none,
  partName := fun _ => none }

example : ∃ (label : Text) (els : List (Int × H)), FliLoop exLoopSim.toFli exFliTop label els ∧
    label ≠ exLoopSim.regionName exFliTop.hdl ∧ exLoopSim.pkind exFliTop.hdl = .region ∧ label ≠ [] ∧
    (∀ e ∈ els, VhdlInt e.1 ∧ els.find? (·.1 = e.1) = some e) ∧
    ((exLoopSim.lower exFliTop.hdl).filter fun r => exLoopSim.forGen r && beforeLast [40] (exLoopSim.regionName r) == label) =
      els.map (·.2) ∧ els.length = 2 := by
  refine ⟨Fli.str "gen", [(1, 1), (2, 2)], exFliLoop, by decide +kernel, by decide +kernel, by decide +kernel, ?_,
    by decide +kernel, rfl⟩
  intro e he
  simp only [List.mem_cons, List.not_mem_nil, or_false] at he
  rcases he with rfl | rfl <;> exact ⟨by unfold VhdlInt; omega, by decide +kernel⟩

/-- A loop `gen` in an entity `gen` is taken for the entity: its listing is that of the entity, and contains the loop. -/
theorem C170_loop_counterexample : ¬ C170_loop_full := by
  intro H
  obtain ⟨o, bs, h1, h2, _⟩ := H { exFliSame with
      pkind := fun _ => .region, consts := fun _ => [], signals := fun _ => [], varName := fun _ => none,
      sigName := fun _ => none, partName := fun _ => none } exFliTop (Fli.str "gen") [(1, 1), (2, 2)]
    { parent := by decide
      plain := by decide +kernel
      blocks := by decide
      region := by decide +kernel
      listed := by decide
      whole := Or.inl (by decide +kernel)
      one := exFli_one } rfl (by decide +kernel) (by
        intro e he
        simp only [List.mem_cons, List.not_mem_nil, or_false] at he
        rcases he with rfl | rfl <;> exact ⟨by unfold VhdlInt; omega, by decide +kernel⟩) (by decide +kernel)
  have : Fli.fliByName exFliSame (Fli.str "gen") exFliTop =
      some { hdl := 0, type := .module, name := Fli.str "gen", full := Fli.str "/top/gen", numElems := 1 } := by decide +kernel
  rw [this] at h1
  cases h1
  cases h2

/-- C170, full statement for records: a record lists its fields, each as a lookup of its name gives it. -/
def C170_record_full : Prop := ∀ (F : Sim) (p : Fli.Obj) (fs : List (H × Text)), Record F p fs → ∀ n,
  listed F p n = ((fs.map (·.2)).map (looked F p)).take n

/-- C170: fields whose name has no dot. -/
theorem C170_record_partial {F : Sim} {p : Fli.Obj} {fs : List (H × Text)} (R : Record F p fs) (hd : ∀ e ∈ fs, 46 ∉ e.2) (n : Nat) :
    listed F p n = ((fs.map (·.2)).map (looked F p)).take n := by
  obtain ⟨h1, h2, h3⟩ := R.parent
  have hpa : passes F p = fun _ => true := by funext h; unfold passes; rw [h1]; rfl
  have hfil : ∀ l : List H, l.filter (passes F p) = l := by intro l; rw [hpa]; simp
  have hsk : ∀ o, skips p o = false := by intro o; unfold skips; rw [h1]; rfl
  rw [listed_eq, h3]
  congr 1
  have key : ∀ e ∈ fs, emit F p (if p.isVar then .variableSubs else .signalSubs) e.1 = looked F p e.2 := by
    intro e he
    obtain ⟨f1, ⟨a, f2⟩, f3⟩ := R.fields e he
    have hc : Gpi.cutLast 46 (a ++ 46 :: e.2) = some (a, 46 :: e.2) := Gpi.cutLast_app a (hd e he)
    cases hv : p.isVar <;> rw [hv] at f2 f3 <;> simp only [Bool.false_eq_true, if_false, if_true, List.append_assoc, List.singleton_append] at f2 f3 <;>
      simp [looked, Fli.fliByName, Fli.childName, h2, h1, hv, Fli.find, f3, f1, emit, simName, f2, hc] <;> rfl
  cases hv : p.isVar <;> rw [hv] at key <;>
    simp only [Bool.false_eq_true, if_false, if_true, iterateOver, Option.getD_some, all, List.filter_cons, hsk, Bool.not_false,
      List.filter_nil, List.flatMap_cons, List.flatMap_nil, List.append_nil, populate, parts, h1, hfil, R.subs, List.map_map] <;>
    exact List.map_congr_left fun e he => key e he

theorem exFliRecord : Record exSim exRec [(6, Fli.str "a"), (7, Fli.str "\\x.y\\")] where
  parent := by decide +kernel
  subs := by decide +kernel
  fields := by
    intro e he
    simp only [List.mem_cons, List.not_mem_nil, or_false] at he
    rcases he with rfl | rfl
    · exact ⟨by decide +kernel, ⟨Fli.str "r", by decide +kernel⟩, by decide +kernel⟩
    · exact ⟨by decide +kernel, ⟨Fli.str "r", by decide +kernel⟩, by decide +kernel⟩

/-- The field `\\x.y\\` of a record is listed as `y\\`. -/
theorem C170_record_counterexample : ¬ C170_record_full := by
  intro h
  have := h exSim exRec _ exFliRecord 2
  revert this
  decide +kernel

example : ∃ fs, Record { exSim with subs := fun h => if h = 5 then [6] else [] } exRec fs ∧ (∀ e ∈ fs, 46 ∉ e.2) ∧ fs.length = 1 := by
  refine ⟨[(6, Fli.str "a")], ⟨by decide +kernel, by decide +kernel, ?_⟩, by decide +kernel, rfl⟩
  intro e he
  simp only [List.mem_cons, List.not_mem_nil, or_false] at he
  subst he
  exact ⟨by decide +kernel, ⟨Fli.str "r", by decide +kernel⟩, by decide +kernel⟩

namespace FliIterL

theorem arr_index {F : Sim} {p : Fli.Obj} {es : List (Int × H)} (A : Arr F p es) (k : Nat) (e : Int × H) (h : es[k]? = some e) :
    e.1 = if p.left > p.right then p.left - k else p.left + k := by
  induction k generalizing e with
  | zero => have := A.left e h; simp [this]
  | succ k ih =>
    have hlt : k + 1 < es.length := (List.getElem?_eq_some_iff.1 h).1
    have h0 : es[k]? = some (es[k]'(by omega)) := List.getElem?_eq_getElem _
    have := A.step k _ e h0 h
    rw [this, ih _ h0]
    split <;> omega

theorem arr_indexes {F : Sim} {p : Fli.Obj} {es : List (Int × H)} (A : Arr F p es) : indexes p.left p.right = es.map (·.1) := by
  have hpos : 0 < es.length := List.length_pos_iff.2 A.some
  have hl : es[es.length - 1]? = some (es[es.length - 1]'(by omega)) := List.getElem?_eq_getElem _
  have hr := A.right _ hl
  have hi := arr_index A _ _ hl
  rw [hr] at hi
  have hlen : (if p.left > p.right then p.left - p.right + 1 else p.right - p.left + 1).toNat = es.length := by
    split at hi <;> rename_i hc <;> simp only [hc, if_true, if_false] <;> omega
  apply List.ext_getElem?
  intro k
  rw [List.getElem?_map]
  by_cases hk : k < es.length
  · have h0 : es[k]? = some es[k] := List.getElem?_eq_getElem _
    rw [h0]
    have := arr_index A k _ h0
    unfold indexes
    split at hlen
    · rename_i hc
      rw [if_pos hc, List.getElem?_map, List.getElem?_range (by omega)]
      simp only [hc, if_true] at this
      simp [this]
    · rename_i hc
      rw [if_neg hc, List.getElem?_map, List.getElem?_range (by omega)]
      simp only [hc, if_false] at this
      simp [this]
  · have h0 : es[k]? = none := List.getElem?_eq_none (by omega)
    rw [h0]
    unfold indexes
    split at hlen
    · rename_i hc
      rw [if_pos hc, List.getElem?_map, List.getElem?_eq_none (by simp; omega)]
      rfl
    · rename_i hc
      rw [if_neg hc, List.getElem?_map, List.getElem?_eq_none (by simp; omega)]
      rfl

theorem arr_sub {F : Sim} {p : Fli.Obj} {es : List (Int × H)} (A : Arr F p es) (k : Nat) (e : Int × H) (h : es[k]? = some e) :
    Fli.subHdl F.toFli p e.1 = some e.2 := by
  have hi := arr_index A k e h
  have hlt : k < es.length := (List.getElem?_eq_some_iff.1 h).1
  have hn := A.length
  have hsub : (F.subs p.hdl)[k]? = some e.2 := by rw [A.subs, List.getElem?_map, h]; rfl
  unfold Fli.subHdl
  have hidx : (if p.left > p.right then p.left - e.1 else e.1 - p.left) = (k : Int) := by
    split <;> rename_i hc <;> simp only [hc, if_true, if_false] at hi <;> omega
  simp only [A.parent.2.2.1, Bool.not_true, Bool.false_eq_true, if_false, hidx]
  rw [if_neg (by omega)]
  simpa using hsub

theorem arr_parts {F : Sim} {p : Fli.Obj} {es : List (Int × H)} (A : Arr F p es) : parts F p = es.map (·.2) := by
  unfold parts
  rw [A.parent.1, if_neg (by decide), A.parent.2.2.1, if_pos rfl, arr_indexes A, List.filterMap_map]
  have : ∀ e ∈ es, (Fli.subHdl F.toFli p ∘ (·.1)) e = some e.2 := by
    intro e he
    obtain ⟨k, hk, e1⟩ := List.getElem_of_mem he
    exact arr_sub A k e (by rw [List.getElem?_eq_getElem hk, e1])
  clear A
  induction es with
  | nil => rfl
  | cons e es ih =>
    rw [List.filterMap_cons, this e (by simp)]
    simp only [List.map_cons]
    rw [ih fun f hf => this f (by simp [hf])]

theorem idx_shape {i : Int} (h : VhdlInt i) : Vhpi.idxText i = 40 :: (decInt i ++ [41]) := by
  rw [idxText_eq h]; simp [indexSuffix]

theorem create_renamed (F : Fli.Fli) (h : H) (a b full : Text) (hv : F.value h = true) :
    (match Fli.createObj F h a full with | some x => Item.native x | none => Item.notNative a) =
      renamed a (match Fli.createObj F h b full with | some x => Item.native x | none => Item.notNative b) := by
  unfold Fli.createObj
  cases F.vhdl h with
  | false => rfl
  | true =>
    simp only [Bool.not_true, Bool.false_eq_true, if_false, hv]
    cases Fli.valueType (F.ty h) with
    | none => rfl
    | some t =>
      simp only [renamed]
      congr 1
      cases F.ty h <;> rfl

end FliIterL
open FliIterL

/-- C170, full statement for arrays: an array lists its elements in the order of declaration, each as a lookup of its index
gives it. -/
def C170_array_full : Prop := ∀ (F : Sim) (p : Fli.Obj) (es : List (Int × H)), Arr F p es → ∀ n,
  (listed F p n).map some = (es.map fun e => lookedIndex F p e.1).take n

/-- C170, partial (the full claim is false of the code): an array lists its elements in the order of declaration, each as a
lookup of its index gives it but for the name, which is the index and a closing parenthesis. -/
theorem C170_array_partial {F : Sim} {p : Fli.Obj} {es : List (Int × H)} (A : Arr F p es)
    (hx : ∀ e ∈ es, ∃ i, lookedIndex F p e.1 = some i) (n : Nat) :
    (listed F p n).map some = (es.map fun e => (lookedIndex F p e.1).map (renamed (decInt e.1 ++ [41]))).take n := by
  obtain ⟨h1, h2, hi, h3⟩ := A.parent
  have hpa : passes F p = fun _ => true := by funext h; unfold passes; rw [h1]; rfl
  have hfil : ∀ l : List H, l.filter (passes F p) = l := by intro l; rw [hpa]; simp
  have hsk : ∀ o, skips p o = false := by intro o; unfold skips; rw [h1]; rfl
  rw [listed_eq, h3, List.map_take]
  congr 1
  have key : ∀ e ∈ es, some (emit F p (if p.isVar then .variableSubs else .signalSubs) e.2) =
      (lookedIndex F p e.1).map (renamed (decInt e.1 ++ [41])) := by
    intro e he
    obtain ⟨f1, f2, ⟨a, f3⟩⟩ := A.elems e he
    obtain ⟨k, hk, ek⟩ := List.getElem_of_mem he
    have hs := arr_sub A k e (by rw [List.getElem?_eq_getElem hk, ek])
    have hno : 40 ∉ decInt e.1 ++ [41] := by
      intro h
      rcases List.mem_append.1 h with h | h
      · rcases decInt_chars h with h | h <;> omega
      · simp at h
    have hc : Gpi.cutLast 40 (a ++ 40 :: (decInt e.1 ++ [41])) = some (a, 40 :: (decInt e.1 ++ [41])) := Gpi.cutLast_app a hno
    obtain ⟨it, hit⟩ := hx e he
    have hcr := create_renamed F.toFli e.2 (decInt e.1 ++ [41]) (p.name ++ 40 :: (decInt e.1 ++ [41])) (p.full ++ 40 :: (decInt e.1 ++ [41])) f2
    have hlook : lookedIndex F p e.1 = (Fli.createObj F.toFli e.2 (p.name ++ 40 :: (decInt e.1 ++ [41]))
        (p.full ++ 40 :: (decInt e.1 ++ [41]))).map .native := by
      simp only [lookedIndex, Fli.fliByIndex, h1, hs, idx_shape f1]
    rw [hlook] at hit ⊢
    cases hobj : Fli.createObj F.toFli e.2 (p.name ++ 40 :: (decInt e.1 ++ [41])) (p.full ++ 40 :: (decInt e.1 ++ [41])) with
    | none => rw [hobj] at hit; cases hit
    | some x =>
      rw [hobj] at hcr
      simp only [Option.map_some]
      rw [← hcr]
      rw [idx_shape f1] at f3
      cases hv : p.isVar <;> rw [hv] at f3 <;> simp only [Bool.false_eq_true, if_false, if_true] at f3 <;>
        simp [emit, simName, f3, h2, h1, hc] <;> rfl
  rw [List.map_map]
  cases hv : p.isVar <;> rw [hv] at key <;>
    simp only [Bool.false_eq_true, if_false, if_true, iterateOver, Option.getD_some, all, List.filter_cons, hsk, Bool.not_false,
      List.filter_nil, List.flatMap_cons, List.flatMap_nil, List.append_nil, populate, arr_parts A, hfil, List.map_map] <;>
    exact List.map_congr_left fun e he => key e he

/-- `a : array (2 downto 1)`, elements 6 and 7. -/
def exArr : Fli.Obj :=
  { hdl := 5, type := .array, name := Fli.str "a", full := Fli.str "/top/a", indexable := true, left := 2, right := 1, dir := .down, numElems := 2 }

def exArrSim : Sim := { exSim with
  partName := fun h => if h = 6 then some (Fli.str "/top/a(2)") else if h = 7 then some (Fli.str "/top/a(1)") else none }

theorem exFliArrListed : Arr exArrSim exArr [(2, 6), (1, 7)] where
  parent := by decide +kernel
  left := by simp [exArr]
  right := by simp [exArr]
  step := by
    intro k e f h1 h2
    match k with
    | 0 => simp at h1 h2; subst h1; subst h2; decide +kernel
    | k + 1 => simp at h2
  some := by simp
  length := by decide +kernel
  subs := by decide +kernel
  elems := by
    intro e he
    simp only [List.mem_cons, List.not_mem_nil, or_false] at he
    rcases he with rfl | rfl
    · exact ⟨by unfold VhdlInt; decide +kernel, by decide +kernel, Fli.str "/top/a", by decide +kernel⟩
    · exact ⟨by unfold VhdlInt; decide +kernel, by decide +kernel, Fli.str "/top/a", by decide +kernel⟩

example : (listed exArrSim exArr 5).length = 2 ∧ ∀ e ∈ [((2 : Int), 6), (1, 7)], (lookedIndex exArrSim exArr e.1).isSome := by
  decide +kernel

/-- The element `a(2)` is listed under the name `2)`. -/
theorem C170_array_counterexample : ¬ C170_array_full := by
  intro h
  have := h exArrSim exArr _ exFliArrListed 1
  revert this
  decide +kernel

/-- C170: of the constants and signals of a region that have no name, exactly those that are not of VHDL are given to the
other interfaces as they are. -/
theorem C170_nameless {F : Sim} {p : Fli.Obj} (hp : p.type = .module ∧ F.pkind p.hdl = .region) (h : H) :
    (∃ n, Item.notNativeNoName h ∈ listed F p n) ↔ F.vhdl h = false ∧
      (h ∈ F.consts p.hdl ∧ F.varName h = none ∨ h ∈ F.signals p.hdl ∧ F.sigName h = none) := by
  have key : ∀ o x, emit F p o x = .notNativeNoName h ↔ x = h ∧ simName F o h = none ∧ F.vhdl h = false := by
    intro o x
    unfold emit
    cases hs : simName F o x with
    | none =>
      simp only
      constructor
      · intro e
        split at e
        · cases e
        · rename_i hv
          cases e
          exact ⟨rfl, hs, by simpa using hv⟩
      · rintro ⟨rfl, _, hv⟩
        simp [hv]
    | some cn =>
      constructor
      · intro e
        dsimp only at e
        split at e <;> cases e
      · rintro ⟨rfl, h2, _⟩
        rw [hs] at h2
        cases h2
  have hm : (∃ n, Item.notNativeNoName h ∈ listed F p n) ↔
      Item.notNativeNoName h ∈ (all F p [.constants, .signals, .regions]).map fun e => emit F p e.1 e.2 := by
    constructor
    · rintro ⟨n, hn⟩
      rw [listed_eq, hp.2] at hn
      exact List.mem_of_mem_take hn
    · intro hn
      refine ⟨((all F p [.constants, .signals, .regions]).map fun e => emit F p e.1 e.2).length, ?_⟩
      rw [listed_eq, hp.2]
      simp only [iterateOver, Option.getD_some, List.take_length]
      exact hn
  rw [hm, all_module hp.1]
  simp only [List.map_append, List.map_map, List.mem_append, List.mem_map, Function.comp, key, simName]
  constructor
  · rintro (⟨x, hx, rfl, h1, h2⟩ | ⟨x, hx, rfl, h1, h2⟩ | ⟨x, hx, rfl, h1, h2⟩)
    · exact ⟨h2, Or.inl ⟨hx, h1⟩⟩
    · exact ⟨h2, Or.inr ⟨hx, h1⟩⟩
    · cases h1
  · rintro ⟨h2, ⟨hx, h1⟩ | ⟨hx, h1⟩⟩
    · exact Or.inl ⟨h, hx, rfl, h1, h2⟩
    · exact Or.inr (Or.inl ⟨h, hx, rfl, h1, h2⟩)

example : ∃ n, Item.notNativeNoName 3 ∈ listed { exSim with
    pkind := fun _ => .region, consts := fun _ => [], signals := fun _ => [3], sigName := fun _ => none, vhdl := fun _ => false,
    varName := fun _ => none, partName := fun _ => none } exFliTop n :=
  (C170_nameless (by decide +kernel) 3).2 (by decide +kernel)

/-- C170: a block of a loop without a label is listed as itself, under all of its name. -/
theorem C170_nolabel {F : Sim} {p x : Fli.Obj} (hp : p.type = .module ∧ F.pkind p.hdl = .region) {h : H} {i : Int}
    (hh : h ∈ F.lower p.hdl) (hg : F.forGen h = true) (hn : F.regionName h = indexSuffix [i])
    (hx : Fli.createObj F.toFli h (indexSuffix [i]) (fliFull p (indexSuffix [i])) = some x) : ∃ n, .native x ∈ listed F p n := by
  have hc : Gpi.cutLast 40 (indexSuffix [i]) = some ([], indexSuffix [i]) := by simpa using cut_block (label := []) i
  have he : emit F p .regions h = .native x := by
    unfold emit
    simp only [simName, hn, hg, hp.1, hc, ne_eq, true_and, and_true, if_true, reduceCtorEq, not_false_eq_true, or_self, if_false]
    unfold fliFull at hx
    by_cases h47 : p.full = [47] <;> simp_all
  refine ⟨((all F p [.constants, .signals, .regions]).map fun e => emit F p e.1 e.2).length, ?_⟩
  rw [listed_eq, hp.2]
  simp only [iterateOver, Option.getD_some, List.take_length, all_module hp.1, List.map_append, List.map_map, List.mem_append,
    List.mem_map, Function.comp]
  exact Or.inr (Or.inr ⟨h, hh, he⟩)

example : ∃ (F : Sim) (x : Fli.Obj), (exFliTop.type = .module ∧ F.pkind exFliTop.hdl = .region) ∧ 1 ∈ F.lower exFliTop.hdl ∧
    F.forGen 1 = true ∧ F.regionName 1 = indexSuffix [2] ∧
    Fli.createObj F.toFli 1 (indexSuffix [2]) (fliFull exFliTop (indexSuffix [2])) = some x :=
  ⟨{ exFliSame with
      pkind := fun _ => .region, consts := fun _ => [], signals := fun _ => [], varName := fun _ => none,
      sigName := fun _ => none, partName := fun _ => none, regionName := fun _ => indexSuffix [2] },
    _, by decide +kernel, by decide +kernel, by decide +kernel, rfl, rfl⟩

end Verif
