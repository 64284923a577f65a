import Verif.Spec.GpiDesigns
import Verif.Lemmas.GpiListing
import Verif.Lemmas.GpiHistory
/-!
# A small design is regular
-/
namespace Verif.Gpi

/-- Regular simulators with sensible toplevel modules and packages are consistent. -/
theorem Regular.consistent {c V} (R : Regular c V) (hn : ∀ h ∈ V.modules.getD [], V.fullName h ≠ none)
    (hr : ∀ o, Item.native o ∈ rootItems V 0 → Simple o.full ∧ vpiRoot V 0 (some o.full) = some o)
    (hp : ∀ o, Item.native o ∈ packageItems V 0 → ∃ n, Simple n ∧ direct c V (.package n) = some o) : Consistent c V where
  objects _ _ _ hpk hd hf hs hl _ hm hu := regular_objects R hpk hd hf hs hl hm hu
  named := hn
  roots := hr
  packages := hp

theorem small_byName {t : Text} {h : H} (e : smallVpi.byName t = some h) :
    (t = nm "top" ∧ h = 0) ∨ (t = nm "top.s" ∧ h = 1) ∨ (t = nm "top.g[0]" ∧ h = 2) := by
  simp only [smallVpi] at e
  split at e
  · cases e; exact Or.inl ⟨by assumption, rfl⟩
  · split at e
    · cases e; exact Or.inr (Or.inl ⟨by assumption, rfl⟩)
    · split at e
      · cases e; exact Or.inr (Or.inr ⟨by assumption, rfl⟩)
      · cases e

/-- The only object with handle 0 that is not a generate block is `top`. -/
theorem small_top {p o} (h : direct icarus smallVpi p = some o) (h0 : o.hdl = 0) (hg : o.type ≠ .genArray) :
    p = .root (nm "top") := by
  cases p with
  | root n =>
    obtain ⟨x, hx⟩ : ∃ x, vpiRoot smallVpi 0 (some n) = some x := ⟨o, h⟩
    unfold vpiRoot at hx
    dsimp only at hx
    split at hx
    · cases hx
    · rename_i y hy
      have := List.find?_some hy
      have hm : y = 0 := by
        have := List.mem_of_find?_eq_some hy
        simpa [smallVpi] using this
      subst hm
      simp only [Bool.and_eq_true, beq_iff_eq] at this
      rw [this.2]; rfl
  | package n => exact absurd (direct_package h).2 (by simp [packageItems, smallVpi, noVpi])
  | child p' n =>
    exfalso
    rw [direct, Option.bind_eq_some_iff] at h
    obtain ⟨po, hpo, h⟩ := h
    split at h
    · cases h
    unfold vpiByName at h
    split at h
    · cases h
    · rename_i h' hr
      have hh := (createObj_made h).hdl
      rw [h0] at hh; subst hh
      have hn : n = nm "top" := by
        have ht : smallVpi.type 0 = some .module := rfl
        have := (createObj_hier h ht rfl).2.2.2.1
        refine Classical.byContradiction fun hne => hg (this.mpr ?_)
        intro e; exact hne (by rw [← e]; rfl)
      subst hn
      have hd : dot ∈ po.full ++ delim po ++ nm "top" := by
        have : delim po = [dot] := by
          rw [delim_direct hpo]
          cases p' with
          | package m => exact absurd (direct_package hpo).2 (by simp [packageItems, smallVpi, noVpi])
          | _ => rfl
        rw [this]; simp
      unfold resolveName at hr
      simp only [icarus, Bool.false_eq_true, if_false, Option.map_eq_some_iff] at hr
      obtain ⟨x, h1, h2⟩ := hr
      split at h1
      · rename_i y hy
        cases h1
        rcases small_byName hy with ⟨e, rfl⟩ | ⟨e, rfl⟩ | ⟨e, rfl⟩
        · rw [e] at hd; exact absurd hd (by decide)
        · rw [if_neg (by decide)] at h2; cases h2
        · rw [if_neg (by decide)] at h2; cases h2
      · split at h1
        · rename_i ha
          rw [List.any_eq_true] at ha
          obtain ⟨z, hz, hc⟩ := ha
          have : z = 2 := by
            by_cases h00 : po.hdl = 0
            · rw [h00] at hz
              simpa [smallVpi] using hz
            · simp [smallVpi, h00] at hz
          subst this
          exact absurd hc (by decide)
        · cases h1
  | elem p' i =>
    exfalso
    rw [direct, Option.bind_eq_some_iff] at h
    obtain ⟨po, hpo, h⟩ := h
    unfold vpiByIndex at h
    split at h
    · cases h
    · rename_i h' hr
      have hh := (createObj_made h).hdl
      rw [h0] at hh; subst hh
      have hbn : ∀ x, smallVpi.byName (po.full ++ idxText i) = some x → x ≠ 0 := by
        intro x hx
        rcases small_byName hx with ⟨e, rfl⟩ | ⟨e, rfl⟩ | ⟨e, rfl⟩
        · have : lbr ∈ po.full ++ idxText i := by unfold idxText; simp
          rw [e] at this; exact absurd this (by decide)
        · decide
        · decide
      unfold resolveIndex at hr
      split at hr
      · exact hbn _ hr rfl
      all_goals first
        | cases hr
        | (split at hr
           · rename_i hx; simp [smallVpi, noVpi] at hx
           · dsimp only at hr
             split at hr
             · cases hr
             · split at hr
               · rename_i hx; cases hr; exact hbn _ hx rfl
               · have : smallVpi.ranges po.hdl = none := rfl
                 rw [this] at hr
                 dsimp only at hr
                 split at hr
                 · omega
                 · cases hr)

/-- The path of `top.g[0]`. -/
def smallElem : Path := .elem (.child (.root (nm "top")) (nm "g")) 0

theorem top_ok : (Path.root (nm "top")).Ok := by
  show Simple (nm "top")
  decide +kernel

theorem smallElem_ok : smallElem.Ok := ⟨⟨top_ok, by decide +kernel⟩, by decide⟩

theorem smallElem_text : smallElem.text = nm "top.g[0]" := by decide +kernel

theorem small_regular : Regular icarus smallVpi where
  notIus := rfl
  region := by
    intro p o h hp hd hg hm hr
    have h0 : o.hdl = 0 := by
      refine Classical.byContradiction fun h0 => ?_
      simp [smallVpi, h0] at hm
    have e := small_top hd h0 hg
    subst e
    have : h = 2 := by rw [h0] at hm; simpa [smallVpi] using hm
    subst this
    refine ⟨nm "g[0]", rfl, Or.inr ⟨nm "g", 0, by decide +kernel, by decide, by decide +kernel, by decide +kernel, ?_, ?_⟩⟩
    · rw [h0]; decide
    · intro g hg'
      have : smallVpi.byName (Path.child (.root (nm "top")) (nm "g")).text = none := by decide +kernel
      rw [this] at hg'; cases hg'
  item := by
    intro p o rel h n hp hd hs hg hm hnr hn
    have h0 : o.hdl = 0 := by
      refine Classical.byContradiction fun h0 => ?_
      simp [smallVpi, h0] at hm
    have e := small_top hd h0 hg
    subst e
    rw [h0] at hm
    have ho : o.type = .module := (vpiRoot_eq hd).2.1
    have hh : h = 1 := by
      simp only [smallVpi, if_true] at hm
      split at hm
      · simpa using hm
      · split at hm
        · rename_i hrel
          have : h = 2 := by simpa using hm
          subst this
          exact absurd ⟨hrel, rfl⟩ hnr
        · cases hm
    subst hh
    have : n = nm "s" := by
      have : smallVpi.name 1 = some (nm "s") := rfl
      rw [this] at hn; cases hn; rfl
    subst this
    have : nameIn o (nm "s") = nm "s" := by unfold nameIn; rw [if_neg (by rw [ho]; simp)]
    rw [this]
    exact ⟨by decide +kernel, by decide +kernel, by decide⟩
  own := by
    intro p n h t hp hn hb ht hs hne
    exfalso
    rcases small_byName hb with ⟨e, rfl⟩ | ⟨e, rfl⟩ | ⟨e, rfl⟩
    · have := Path.text_inj (p := .child p n) (q := .root (nm "top")) ⟨hp, hn⟩ top_ok e
      cases this
    · have : t = .net := by
        have h1 : smallVpi.type 1 = some .net := rfl
        rw [h1] at ht; cases ht; rfl
      subst this; exact absurd hs (by decide)
    · have := Path.text_inj (p := .child p n) (q := smallElem) ⟨hp, hn⟩ smallElem_ok (by rw [e, smallElem_text])
      cases this
  ownElem := by
    intro p o i h t hp hd hi hb ht hs
    rcases hb with hb | hb
    · cases hb
    · rcases small_byName hb with ⟨e, rfl⟩ | ⟨e, rfl⟩ | ⟨e, rfl⟩
      · have := Path.text_inj (p := .elem p i) (q := .root (nm "top")) ⟨hp, hi⟩ top_ok e
        cases this
      · have : t = .net := by
          have h1 : smallVpi.type 1 = some .net := rfl
          rw [h1] at ht; cases ht; rfl
        subst this; exact absurd hs (by decide)
      · have := Path.text_inj (p := .elem p i) (q := smallElem) ⟨hp, hi⟩ smallElem_ok (by rw [e, smallElem_text])
        unfold smallElem at this
        cases this
        have ho : direct icarus smallVpi (.child (.root (nm "top")) (nm "g")) =
          some { impl := 0, hdl := 0, type := .genArray, name := nm "g", full := nm "top.g" } := by decide +kernel
        rw [ho] at hd; cases hd
        have h2 : smallVpi.type 2 = some .genScope := rfl
        rw [h2] at ht; cases ht
        exact ⟨by decide, by decide +kernel⟩

theorem small_consistent : Consistent icarus smallVpi := by
  refine small_regular.consistent ?_ ?_ ?_
  · intro h hm
    have : h = 0 := by simpa [smallVpi] using hm
    subst this; decide
  · intro o hm
    have : rootItems smallVpi 0 = [Item.native { impl := 0, hdl := 0, type := .module, name := nm "top", full := nm "top" }] := by
      decide +kernel
    rw [this] at hm
    have : o = { impl := 0, hdl := 0, type := .module, name := nm "top", full := nm "top" } := by simpa using hm
    subst this
    exact ⟨by decide +kernel, by decide +kernel⟩
  · intro o hm
    simp [packageItems, smallVpi, noVpi] at hm

end Verif.Gpi
