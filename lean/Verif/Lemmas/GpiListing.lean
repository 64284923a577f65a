import Verif.Lemmas.GpiHistory
/-!
# Iterating and looking up agree
-/
namespace Verif.Gpi

variable {c : Flavor} {V : Vpi}

theorem dropWhile_nil {p : Nat → Bool} {l : List Nat} : l.dropWhile p = [] ↔ ∀ x ∈ l, p x = true := by
  induction l with
  | nil => simp
  | cons a l ih =>
    by_cases h : p a = true
    · rw [List.dropWhile_cons_of_pos h, ih]; simp [h]
    · rw [List.dropWhile_cons_of_neg h]; simp [h]

theorem cutLast_none {x : Nat} {t : Text} (h : x ∉ t) : cutLast x t = none := by
  unfold cutLast
  have : t.reverse.dropWhile (· != x) = [] := by
    rw [dropWhile_nil]
    intro y hy
    simp only [bne_iff_ne, ne_eq]
    rintro rfl
    exact h (by simpa using hy)
  simp [this]

theorem cutLast_app {x : Nat} (a : Text) {b : Text} (h : x ∉ b) : cutLast x (a ++ x :: b) = some (a, x :: b) := by
  have e : (a ++ x :: b).reverse = b.reverse ++ x :: a.reverse := by simp
  have hb : ∀ y ∈ b.reverse, (y != x) = true := by
    intro y hy
    simp only [bne_iff_ne, ne_eq]
    rintro rfl
    exact h (by simpa using hy)
  unfold cutLast
  simp only [e]
  rw [List.dropWhile_append_of_pos hb, List.takeWhile_append_of_pos hb]
  simp

theorem cutLast_eq {x : Nat} {t a b : Text} (h : cutLast x t = some (a, b)) : t = a ++ b ∧ ∃ d, b = x :: d ∧ x ∉ d := by
  unfold cutLast at h
  dsimp only at h
  split at h
  · cases h
  · rename_i y b' hd
    cases h
    have h1 := List.takeWhile_append_dropWhile (p := (· != x)) (l := t.reverse)
    rw [hd] at h1
    have hy : y = x := by
      have := List.head_dropWhile_not (p := (· != x)) (l := t.reverse) (by rw [hd]; simp)
      simp only [hd, List.head_cons] at this
      simpa using this
    subst hy
    refine ⟨?_, _, rfl, ?_⟩
    · have h2 := congrArg List.reverse h1
      simp only [List.reverse_append, List.reverse_cons, List.reverse_reverse, List.append_assoc] at h2
      simpa using h2.symm
    · intro hm
      rw [List.mem_reverse] at hm
      have : ∀ z ∈ (t.reverse.takeWhile (· != y)), (z != y) = true := by
        intro z hz
        exact (List.all_eq_true.mp (List.all_takeWhile (p := (· != y)) (l := t.reverse))) z hz
      have := this y hm
      simp at this

theorem Simple.lbr {n : Text} (h : Simple n) : lbr ∉ n := fun hm => (h.2 _ hm).2.1 rfl

theorem Simple.dot {n : Text} (h : Simple n) : dot ∉ n := fun hm => (h.2 _ hm).1 rfl

theorem idx_no (x : Nat) (hx : x = 46 ∨ x = 91 ∨ x = 58) (i : Int) : x ∉ decInt i ++ [93] := by
  intro h
  simp only [List.mem_append, List.mem_singleton] at h
  rcases h with h | h
  · exact decInt_no (by omega) h
  · omega

theorem cutLast_elem (b : Text) (i : Int) :
    cutLast lbr (b ++ lbr :: (decInt i ++ [93])) = some (b, lbr :: (decInt i ++ [93])) :=
  cutLast_app b (idx_no _ (Or.inr (Or.inl rfl)) i)

theorem label_simple {n : Text} (h : Simple n) : label n = n := by
  unfold label; rw [cutLast_none h.lbr]

theorem label_elem (b : Text) (i : Int) : label (b ++ lbr :: (decInt i ++ [93])) = b := by
  unfold label; rw [cutLast_elem]

theorem gpiType_genArray (t : VType) (n v) : gpiType t n v ≠ .genArray := by
  cases t <;> simp only [gpiType] <;> first
    | (split <;> simp)
    | simp

theorem getD_type {x : Option Obj} {o : Obj} {name full} (hx : ∀ o', x = some o' → Named o o' name full) :
    (x.getD o).type = o.type := by
  cases hx' : x with
  | none => rfl
  | some o' => exact (hx o' hx').type

theorem constGType_genArray (t : ConstType) : constGType t ≠ .genArray := by cases t <;> simp [constGType]

/-- The object is not a hierarchy object. -/
theorem createObj_other {k h name full o t} (e : createObj c V k h name full = some o) (ht : V.type h = some t)
    (hs : t.scope = false) : o.type ≠ .genArray := by
  unfold createObj at e
  rw [ht] at e
  dsimp only at e
  split at e
  case h_25 | h_26 =>
    cases e
    rw [getD_type fun o' h' => initSignal_named h']
    exact constGType_genArray _
  case h_27 | h_28 | h_29 | h_30 | h_31 =>
    cases e
    rw [getD_type fun o' h' => initArray_named h']
    dsimp only; exact gpiType_genArray _ _ _
  case h_32 | h_33 | h_34 | h_35 =>
    split at e
    · cases e
      rw [getD_type fun o' h' => initSignal_named h']
      simp
    · cases e
      dsimp only; exact gpiType_genArray _ _ _
  case h_36 | h_37 | h_38 | h_39 | h_40 | h_41 | h_42 | h_43 => cases hs
  case h_44 | h_45 | h_46 => cases e
  all_goals
    cases e
    rw [getD_type fun o' h' => initSignal_named h']
    dsimp only; exact gpiType_genArray _ _ _

/-- Hierarchy objects are made from the names given. -/
theorem createObj_hier {k h name full o t} (e : createObj c V k h name full = some o) (ht : V.type h = some t)
    (hs : t.scope = true) :
    o.hdl = h ∧ o.name = name ∧ o.full = full ∧ (o.type = .genArray ↔ (V.name h).getD [] ≠ name) ∧
      (o.type = .genArray ∨ o.type = gpiType t 0 false) := by
  have key : createObj c V k h name full = some (if (V.name h).getD [] ≠ name then
      { impl := k, hdl := h, type := .genArray, name := name, full := full } else
      { impl := k, hdl := h, type := gpiType t 0 false, name := name, full := full }) := by
    unfold createObj
    rw [ht]
    cases t <;> first
      | (exfalso; revert hs; decide)
      | (dsimp only; split <;> rfl)
  rw [key] at e
  cases e
  split
  · rename_i hn; exact ⟨rfl, rfl, rfl, iff_of_true rfl hn, Or.inl rfl⟩
  · rename_i hn
    exact ⟨rfl, rfl, rfl, iff_of_false (by dsimp only; exact gpiType_genArray _ _ _) hn, Or.inr rfl⟩

/-- Only hierarchy objects can be pseudo-regions, and they are made from the names given. -/
theorem createObj_scope {k h name full o} (e : createObj c V k h name full = some o) (hg : o.type = .genArray) :
    (∃ t, V.type h = some t ∧ t.scope = true) ∧ o.hdl = h ∧ o.name = name ∧ o.full = full ∧
      (V.name h).getD [] ≠ name := by
  rcases ht : V.type h with _ | t
  · unfold createObj at e; rw [ht] at e; cases e
  · rcases hs : t.scope with _ | _
    · exact absurd hg (createObj_other e ht hs)
    · obtain ⟨h1, h2, h3, h4, _⟩ := createObj_hier e ht hs
      exact ⟨⟨t, rfl, hs⟩, h1, h2, h3, h4.mp hg⟩

theorem lastPart_simple {n : Text} (h : dot ∉ n) : lastPart n = n := by
  unfold lastPart
  have hb : ∀ y ∈ n.reverse, (y != dot) = true := by
    intro y hy
    simp only [bne_iff_ne, ne_eq]
    rintro rfl
    exact h (by simpa using hy)
  have := List.takeWhile_append_of_pos (l₂ := []) hb
  simp only [List.append_nil, List.takeWhile_nil] at this
  rw [this, List.reverse_reverse]

theorem scannedNames_eq {o : Obj} (h : o.type ≠ .genArray) (n : Text) :
    scannedNames o n = (nameIn o n, o.full ++ delim o ++ nameIn o n) := by
  unfold scannedNames nameIn delim
  rw [if_neg h]
  split
  · rename_i hs
    rw [if_neg (by rw [hs]; simp)]
    rcases hc : cutLast dot n with _ | ⟨a, b⟩
    · have hd : dot ∉ n := by
        intro hm
        unfold cutLast at hc
        dsimp only at hc
        split at hc
        · rename_i he
          rw [dropWhile_nil] at he
          have := he dot (by simpa using hm)
          simp at this
        · cases hc
      simp [lastPart_simple hd]
    · obtain ⟨rfl, d, rfl, hd⟩ := cutLast_eq hc
      have : lastPart (a ++ dot :: d) = d := by
        unfold lastPart
        have hb : ∀ y ∈ d.reverse, (y != dot) = true := by
          intro y hy
          simp only [bne_iff_ne, ne_eq]
          rintro rfl
          exact hd (by simpa using hy)
        rw [show (a ++ dot :: d).reverse = d.reverse ++ dot :: a.reverse by simp, List.takeWhile_append_of_pos hb]
        simp
      simp [this]
  · rfl

/-- A lookup by name that finds the name. -/
theorem resolve_found (hi : c.ius = false) {n : Text} {o : Obj} {h : H} (hb : V.byName (o.full ++ delim o ++ n) = some h)
    (ht : V.type h ≠ some .genScopeArray) : resolveName c V n o = some h := by
  unfold resolveName
  simp only [hi, Bool.false_eq_true, if_false, hb, Option.map_some, if_neg ht]

/-- A lookup by name that finds a generate block. -/
theorem resolve_block (hi : c.ius = false) {b : Text} {o : Obj} {h : H}
    (hm : h ∈ (V.iter .internalScope o.hdl).getD []) (hr : isRegion V h = true)
    (hl : label ((V.name h).getD []) = label b)
    (hb : ∀ g, V.byName (o.full ++ delim o ++ b) = some g → V.type g = some .genScopeArray) :
    resolveName c V b o = some o.hdl := by
  unfold resolveName
  simp only [hi, Bool.false_eq_true, if_false]
  rcases hx : V.byName (o.full ++ delim o ++ b) with _ | g
  · have : (((V.iter .internalScope o.hdl).getD []).any fun r => isRegion V r && sameLabel ((V.name r).getD []) b) = true := by
      rw [List.any_eq_true]
      exact ⟨h, hm, by simp [hr, sameLabel, hl]⟩
    simp [this]
  · simp [hb g hx]

theorem resolveName_cases (hi : c.ius = false) {n : Text} {o : Obj} {h : H} (hr : resolveName c V n o = some h) :
    (V.byName (o.full ++ delim o ++ n) = some h ∧ V.type h ≠ some .genScopeArray) ∨
    (h = o.hdl ∧ ∀ g, V.byName (o.full ++ delim o ++ n) = some g → V.type g = some .genScopeArray) := by
  unfold resolveName at hr
  simp only [hi, Bool.false_eq_true, if_false, Option.map_eq_some_iff] at hr
  obtain ⟨h', h1, h2⟩ := hr
  split at h1
  · rename_i x hx
    cases h1
    split at h2
    · rename_i ht
      subst h2
      exact Or.inr ⟨rfl, fun g hg => by rw [hx] at hg; cases hg; exact ht⟩
    · rename_i ht
      subst h2
      exact Or.inl ⟨hx, ht⟩
  · rename_i hx
    split at h1
    · cases h1
      refine Or.inr ⟨?_, fun g hg => by rw [hx] at hg; cases hg⟩
      split at h2 <;> exact h2.symm
    · cases h1

theorem Made.hdl {k h name full o} (m : Made c V k h name full o) : o.hdl = h := by
  cases m with
  | ok o1 _ hn hi hh => rw [hn.hdl, hh]
  | failed _ hf hi hh => exact hh

theorem resolveIndex_cases {i : Int} {o : Obj} {h : H} (hr : resolveIndex V i o = some h) :
    (V.byIndex o.hdl i = some h ∨ V.byName (o.full ++ idxText i) = some h) ∨
      (h = o.hdl ∧ (o.type = .logic ∨ o.type = .logicArray ∨ o.type = .array ∨ o.type = .string)) := by
  unfold resolveIndex at hr
  split at hr
  · exact Or.inl (Or.inr hr)
  all_goals first
    | cases hr
    | (rename_i hty
       split at hr
       · rename_i hx; cases hr; exact Or.inl (Or.inl hx)
       · dsimp only at hr
         split at hr
         · cases hr
         · split at hr
           · rename_i hx; cases hr; exact Or.inl (Or.inr hx)
           · have hd : ∀ (P : Prop) [Decidable P], (if P then some o.hdl else none) = some h → h = o.hdl := by
               intro P _ e
               split at e
               · cases e; rfl
               · cases e
             exact Or.inr ⟨hd _ hr, by simp [hty]⟩)

theorem child_text_ne (p : Path) (n : Text) : (Path.child p n).text ≠ unknownName := by
  obtain ⟨a, x, hx, e, _⟩ := child_text p n
  rw [e]
  intro h
  have : x ∈ unknownName := by rw [← h]; simp
  rcases hx with rfl | rfl <;> exact absurd this (by decide)

theorem elem_text_ne (p : Path) (i : Int) : (Path.elem p i).text ≠ unknownName := by
  intro h
  have : lbr ∈ unknownName := by rw [← h, Path.text]; simp
  exact absurd this (by decide)

/-- The parent of an object with the right full name has the right full name. -/
theorem parent_child {p' b o} (h : direct c V (.child p' b) = some o) (hf : o.full = (Path.child p' b).text) :
    ∃ po h0, direct c V p' = some po ∧ po.type ≠ .genArray ∧ po.full = p'.text ∧
      po.full ++ delim po ++ b = (Path.child p' b).text ∧ resolveName c V b po = some h0 ∧
      createObj c V 0 h0 b (Path.child p' b).text = some o := by
  rw [direct, Option.bind_eq_some_iff] at h
  obtain ⟨po, hpo, h⟩ := h
  split at h
  · cases h
  rename_i hng
  unfold vpiByName at h
  split at h
  · cases h
  · rename_i h0 hr
    have m := (createObj_made h).full (by rw [hf]; exact child_text_ne _ _)
    have hd := delim_direct hpo
    have hpf : po.full = p'.text := by
      rw [m, Path.text, hd] at hf
      exact List.append_cancel_right (List.append_cancel_right hf)
    have ht : po.full ++ delim po ++ b = (Path.child p' b).text := by rw [hd, hpf, Path.text]
    exact ⟨po, h0, hpo, hng, hpf, ht, hr, by rw [← ht]; exact h⟩

theorem parent_elem {p' i o} (hi : isInt32 i = true) (h : direct c V (.elem p' i) = some o)
    (hf : o.full = (Path.elem p' i).text) :
    ∃ po h0, direct c V p' = some po ∧ po.full = p'.text ∧ po.full ++ idxText i = (Path.elem p' i).text ∧
      resolveIndex V i po = some h0 ∧
      createObj c V 0 h0 (po.name ++ lbr :: (decInt i ++ [93])) (Path.elem p' i).text = some o := by
  rw [direct, Option.bind_eq_some_iff] at h
  obtain ⟨po, hpo, h⟩ := h
  unfold vpiByIndex at h
  split at h
  · cases h
  · rename_i h0 hr
    have m := (createObj_made h).full (by rw [hf]; exact elem_text_ne _ _)
    have hpf : po.full = p'.text := by
      rw [m, Path.text, idxText_eq hi] at hf
      exact List.append_cancel_right hf
    have ht : po.full ++ idxText i = (Path.elem p' i).text := by rw [hpf, Path.text, idxText_eq hi]
    exact ⟨po, h0, hpo, hpf, ht, hr, by rw [← ht]; rw [idxText_eq hi] at h ⊢; exact h⟩

/-- No object of a path is a `vpiGenScopeArray`. -/
theorem no_genScopeArray (R : Regular c V) {p o} (hp : p.Ok) (h : direct c V p = some o) (hf : o.full = p.text) :
    V.type o.hdl ≠ some .genScopeArray := by
  induction p generalizing o with
  | root n =>
    rw [direct] at h
    unfold vpiRoot at h
    dsimp only at h
    split at h
    · cases h
    · rename_i x hx
      cases h
      have := List.find?_some hx
      simp only [Bool.and_eq_true] at this
      intro e
      have h1 := this.1
      unfold isModule at h1
      dsimp only at e
      rw [e] at h1
      exact absurd h1 (by decide)
  | package n =>
    have := (direct_package h).2
    unfold packageItems at this
    rw [List.mem_filterMap] at this
    obtain ⟨x, hx, hm⟩ := this
    rw [Option.map_eq_some_iff] at hm
    obtain ⟨n', _, hm⟩ := hm
    split at hm
    · cases hm
      have := (List.mem_filter.mp hx).2
      intro e
      dsimp only at e
      rw [e] at this
      exact absurd this (by decide)
    · cases hm
  | child p' b ih =>
    obtain ⟨po, h0, hpo, _, hpf, ht, hr, hc⟩ := parent_child h hf
    rw [(createObj_made hc).hdl]
    rcases resolveName_cases R.notIus hr with ⟨_, hnt⟩ | ⟨rfl, _⟩
    · exact hnt
    · exact ih hp.1 hpo hpf
  | elem p' i ih =>
    obtain ⟨po, h0, hpo, hpf, ht, hr, hc⟩ := parent_elem hp.2 h hf
    rw [(createObj_made hc).hdl]
    rcases resolveIndex_cases hr with hk | ⟨rfl, _⟩
    · rw [ht] at hk
      intro e
      exact (R.ownElem p' po i h0 _ hp.1 hpo hp.2 hk e rfl).1 rfl
    · exact ih hp.1 hpo hpf

/-- The GPI type of a hierarchy object. -/
theorem type_of_scope {p o t} (h : direct c V p = some o) (ht : V.type o.hdl = some t)
    (hs : t.scope = true) (hne : t ≠ .genScopeArray) : o.type = .genArray ∨ o.type = .module ∨ o.type = .package := by
  have gm : gpiType t 0 false = .module := by
    cases t <;> first
      | (exfalso; revert hs; decide)
      | (exfalso; exact hne rfl)
      | rfl
  cases p with
  | root n => exact Or.inr (Or.inl (vpiRoot_eq h).2.1)
  | package n => exact Or.inr (Or.inr (package_item (direct_package h).2).2)
  | child p' b =>
    rw [direct, Option.bind_eq_some_iff] at h
    obtain ⟨po, hpo, h⟩ := h
    split at h
    · cases h
    unfold vpiByName at h
    split at h
    · cases h
    · rw [(createObj_made h).hdl] at ht
      rcases (createObj_hier h ht hs).2.2.2.2 with e | e
      · exact Or.inl e
      · exact Or.inr (Or.inl (by rw [e, gm]))
  | elem p' i =>
    rw [direct, Option.bind_eq_some_iff] at h
    obtain ⟨po, hpo, h⟩ := h
    unfold vpiByIndex at h
    split at h
    · cases h
    · rw [(createObj_made h).hdl] at ht
      rcases (createObj_hier h ht hs).2.2.2.2 with e | e
      · exact Or.inl e
      · exact Or.inr (Or.inl (by rw [e, gm]))

/-- A pseudo-region stands for a generate block in its parent. -/
theorem genArray_shape (R : Regular c V) {p o} (hp : p.Ok) (h : direct c V p = some o) (hf : o.full = p.text)
    (hg : o.type = .genArray) :
    ∃ p' b po, p = .child p' b ∧ direct c V p' = some po ∧ po.type ≠ .genArray ∧ po.full = p'.text ∧ o.hdl = po.hdl ∧
      o.name = b ∧ ∀ g, V.byName (Path.child p' b).text = some g → V.type g = some .genScopeArray := by
  cases p with
  | root n => have := (vpiRoot_eq h).2.1; rw [hg] at this; cases this
  | package n => have := (package_item (direct_package h).2).2; rw [hg] at this; cases this
  | child p' b =>
    obtain ⟨po, h0, hpo, hng, hpf, htext, hr, hc⟩ := parent_child h hf
    obtain ⟨⟨t, ht, hts⟩, e1, e2, e3, e4⟩ := createObj_scope hc hg
    rcases resolveName_cases R.notIus hr with ⟨hb, hnt⟩ | ⟨rfl, hb⟩
    · rw [htext] at hb
      have := R.own p' b h0 t hp.1 hp.2 hb ht hts (by intro e; rw [e] at ht; exact hnt ht)
      exact absurd (by rw [this]; rfl) e4
    · rw [htext] at hb
      exact ⟨p', b, po, rfl, hpo, hng, hpf, e1, e2, hb⟩
  | elem p' i =>
    exfalso
    obtain ⟨po, h0, hpo, hpf, htext, hr, hc⟩ := parent_elem hp.2 h hf
    obtain ⟨⟨t, ht, hts⟩, e1, e2, e3, e4⟩ := createObj_scope hc hg
    rcases resolveIndex_cases hr with hk | ⟨rfl, hty⟩
    · rw [htext] at hk
      have := (R.ownElem p' po i h0 t hp.1 hpo hp.2 hk ht hts).2
      exact absurd (by rw [this]; rfl) e4
    · have hne : t ≠ .genScopeArray := by
        intro e; rw [e] at ht; exact no_genScopeArray R hp.1 hpo hpf ht
      rcases type_of_scope hpo ht hts hne with e | e | e <;> rw [e] at hty <;> simp at hty

theorem delim_of_text {p o} (h : direct c V p = some o) (hf : o.full = p.text) (n : Text) :
    o.full ++ delim o ++ n = (Path.child p n).text := by
  rw [delim_direct h, hf, Path.text]

theorem mem_iff_type {V : Vpi} {h : H} (hr : isRegion V h = true) : V.type h = some .genScope ∨ V.type h = some .module := by
  unfold isRegion at hr
  simpa using hr

theorem nameIn_simple (o : Obj) {n : Text} (h : dot ∉ n) : nameIn o n = n := by
  unfold nameIn
  split
  · exact lastPart_simple h
  · rfl

/-- What an iteration lists is what a lookup finds. -/
theorem regular_objects (R : Regular c V) {p o l} (hp : p.Ok) (h : direct c V p = some o) (hf : o.full = p.text)
    (hs : o.type.scope = true) (hl : vpiItems c V 0 (some o) .objects = .items l) {o'} (hm : Item.native o' ∈ l)
    (hu : o'.full ≠ unknownName) : ∃ q : Path, q.Ok ∧ direct c V q = some o' ∧ o'.full = q.text := by
  simp only [vpiItems] at hl
  split at hl
  · rename_i l' hl'
    cases hl
    rw [List.mem_map] at hm
    obtain ⟨⟨rel, x⟩, hx, hitem⟩ := hm
    dsimp only at hitem
    unfold scanItem at hitem
    split at hitem
    · split at hitem <;> cases hitem
    · rename_i cname hname
      dsimp only at hitem
      split at hitem
      · rename_i o2 hc
        cases hitem
        unfold scanAll at hl'
        split at hl'
        · cases hl'; cases hx
        · rename_i rels hrels
          by_cases hg : o.type = .genArray
          · rw [if_pos hg] at hl'
            split at hl'
            · cases hl'
              rw [List.mem_map] at hx
              obtain ⟨y, hy, e⟩ := hx
              cases e
              rw [List.mem_filter] at hy
              obtain ⟨hmem, hcond⟩ := hy
              simp only [Bool.and_eq_true] at hcond
              obtain ⟨p', b, po, rfl, hpo, hng, hpf, hhdl, hnm, hblock⟩ := genArray_shape R hp h hf hg
              rw [hhdl] at hmem
              obtain ⟨n, hn, hcase⟩ := R.region p' po x hp.1 hpo hng hmem hcond.1
              rw [hname] at hn; cases hn
              have hlab : label cname = label b := by
                have := hcond.2
                unfold sameLabel at this
                rw [hname, hnm] at this
                simpa using this
              rw [label_simple hp.2] at hlab
              rcases hcase with ⟨hsim, hby⟩ | ⟨b', i, hb', hi, rfl, hby, _, _⟩
              · rw [label_simple hsim] at hlab
                subst hlab
                have := hblock x hby
                rcases mem_iff_type hcond.1 with e | e <;> rw [this] at e <;> cases e
              · rw [label_elem] at hlab
                subst hlab
                have hsc : scanned V o .internalScope x (b' ++ lbr :: (decInt i ++ [93])) =
                    (b' ++ lbr :: (decInt i ++ [93]), x) := by
                  unfold scanned; rw [if_neg (by simp [hg])]
                have hsn : scannedNames o (b' ++ lbr :: (decInt i ++ [93])) =
                    (b' ++ lbr :: (decInt i ++ [93]), o.full ++ lbr :: (decInt i ++ [93])) := by
                  unfold scannedNames; rw [if_pos hg, cutLast_elem]
                rw [hsc] at hc
                dsimp only at hc
                rw [hsn] at hc
                refine ⟨.elem (.child p' b') i, ⟨hp, hi⟩, ?_, ?_⟩
                · rw [direct, h, Option.bind_some]
                  unfold vpiByIndex resolveIndex
                  rw [hg]
                  dsimp only
                  have : V.byName (o.full ++ idxText i) = some x := by
                    rw [idxText_eq hi, hf]; exact hby
                  rw [this]
                  dsimp only
                  rw [idxText_eq hi, hnm]; exact hc
                · have := (createObj_made hc).full hu
                  rw [this, hf]; simp only [Path.text]
            · cases hl'
          · rw [if_neg hg] at hl'
            cases hl'
            rw [List.mem_flatMap] at hx
            obtain ⟨rel', hrel, hx⟩ := hx
            rw [List.mem_map] at hx
            obtain ⟨y, hy, e⟩ := hx
            cases e
            have fin : ∀ n x', Simple n → createObj c V 0 x' n (o.full ++ delim o ++ n) = some o' →
                resolveName c V n o = some x' → ∃ q : Path, q.Ok ∧ direct c V q = some o' ∧ o'.full = q.text := by
              intro n x' hsn hc' hr
              refine ⟨.child p n, ⟨hp, hsn⟩, ?_, ?_⟩
              · rw [direct, h, Option.bind_some, if_neg hg]
                unfold vpiByName
                rw [hr]; exact hc'
              · rw [(createObj_made hc').full hu, delim_of_text h hf]
            by_cases hreg : rel = .internalScope ∧ isRegion V x = true
            · obtain ⟨rfl, hreg⟩ := hreg
              obtain ⟨n, hn, hcase⟩ := R.region p o x hp h hg hy hreg
              rw [hname] at hn; cases hn
              rcases hcase with ⟨hsim, hby⟩ | ⟨b, i, hb, hi, rfl, hby, hown, hblock⟩
              · have hsc : scanned V o .internalScope x cname = (cname, x) := by
                  unfold scanned
                  split
                  · rw [cutLast_none hsim.lbr]
                  · rfl
                rw [hsc] at hc
                dsimp only at hc
                rw [scannedNames_eq hg, nameIn_simple _ hsim.dot] at hc
                refine fin cname x hsim hc (resolve_found R.notIus (by rw [delim_of_text h hf]; exact hby) ?_)
                rcases mem_iff_type hreg with e | e <;> rw [e] <;> simp
              · rcases mem_iff_type hreg with e | e
                · have hsc : scanned V o .internalScope x (b ++ lbr :: (decInt i ++ [93])) = (b, o.hdl) := by
                    unfold scanned
                    rw [if_pos ⟨rfl, hg, e⟩, cutLast_elem]
                    dsimp only
                    rw [if_neg hb.1]
                  rw [hsc] at hc
                  dsimp only at hc
                  rw [scannedNames_eq hg, nameIn_simple _ hb.dot] at hc
                  refine fin b o.hdl hb hc (resolve_block R.notIus hy hreg ?_ ?_)
                  · rw [hname, Option.getD_some, label_elem, label_simple hb]
                  · rw [delim_of_text h hf]; exact hblock
                · have hsc : scanned V o .internalScope x (b ++ lbr :: (decInt i ++ [93])) =
                      (b ++ lbr :: (decInt i ++ [93]), x) := by
                    unfold scanned
                    rw [if_neg (by rw [e]; simp)]
                  have hnd : dot ∉ b ++ lbr :: (decInt i ++ [93]) := by
                    intro hm
                    rw [List.mem_append, List.mem_cons] at hm
                    rcases hm with hm | hm | hm
                    · exact hb.dot hm
                    · exact absurd hm (by decide)
                    · exact idx_no _ (Or.inl rfl) i hm
                  rw [hsc] at hc
                  dsimp only at hc
                  rw [scannedNames_eq hg, nameIn_simple _ hnd] at hc
                  -- the block is a pseudo-region with the parent's handle
                  have hrb : resolveName c V b o = some o.hdl := resolve_block R.notIus hy hreg
                    (by rw [hname, Option.getD_some, label_elem, label_simple hb])
                    (by rw [delim_of_text h hf]; exact hblock)
                  have hty : ∃ t, V.type o.hdl = some t ∧ t.scope = true := by
                    rw [Option.bind_eq_some_iff] at hrels
                    obtain ⟨t, ht, hio⟩ := hrels
                    refine ⟨t, ht, ?_⟩
                    cases t <;> simp only [iterateOver, Option.some.injEq] at hio <;> first
                      | rfl
                      | (cases hio; done)
                      | (subst hio; exfalso; revert hrel; unfold structRels; split <;> decide)
                      | (subst hio; exfalso; revert hrel; decide)
                  obtain ⟨t, ht, hts⟩ := hty
                  have hblk : ∃ bo, direct c V (.child p b) = some bo ∧ bo.type = .genArray ∧ bo.name = b ∧
                      bo.full = (Path.child p b).text := by
                    rcases hcb : createObj c V 0 o.hdl b (o.full ++ delim o ++ b) with _ | bo
                    · exfalso
                      unfold createObj at hcb
                      rw [ht] at hcb
                      cases t <;> first
                        | (exfalso; revert hts; decide)
                        | (dsimp only at hcb; split at hcb <;> cases hcb)
                    · obtain ⟨k1, k2, k3, k4, _⟩ := createObj_hier hcb ht hts
                      refine ⟨bo, ?_, ?_, k2, by rw [k3, delim_of_text h hf]⟩
                      · rw [direct, h, Option.bind_some, if_neg hg]
                        unfold vpiByName
                        rw [hrb]; exact hcb
                      · refine k4.mpr ?_
                        intro hc'
                        rcases hno : V.name o.hdl with _ | z
                        · rw [hno] at hc'; exact hb.1 hc'.symm
                        · rw [hno] at hc'
                          simp only [Option.getD_some] at hc'
                          exact hown (by rw [hno, hc'])
                  obtain ⟨bo, hbo, hbt, hbn, hbf⟩ := hblk
                  refine ⟨.elem (.child p b) i, ⟨⟨hp, hb⟩, hi⟩, ?_, ?_⟩
                  · rw [direct, hbo, Option.bind_some]
                    unfold vpiByIndex resolveIndex
                    rw [hbt]
                    dsimp only
                    have : V.byName (bo.full ++ idxText i) = some x := by
                      rw [idxText_eq hi, hbf]; exact hby
                    rw [this]
                    dsimp only
                    rw [idxText_eq hi, hbn, hbf, ← delim_of_text h hf]
                    rw [← hc]; simp
                  · rw [(createObj_made hc).full hu, delim_of_text h hf]
                    simp [Path.text]
            · obtain ⟨hsim, hby, hnt⟩ := R.item p o rel x cname hp h hs hg hy hreg hname
              have hsc : scanned V o rel x cname = (cname, x) := by
                unfold scanned
                rw [if_neg]
                rintro ⟨rfl, _, e⟩
                exact hreg ⟨rfl, by unfold isRegion; rw [e]; rfl⟩
              rw [hsc] at hc
              dsimp only at hc
              rw [scannedNames_eq hg] at hc
              exact fin _ x hsim hc (resolve_found R.notIus (by rw [delim_of_text h hf]; exact hby) hnt)
      · cases hitem
  · cases hl

end Verif.Gpi
