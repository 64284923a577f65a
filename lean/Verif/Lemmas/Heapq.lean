import Verif.Py.Heapq

namespace Verif.Py.Heapq

variable {α : Type}

/-- `lt` is the strict part of a total preorder (what `<` of comparable Python items is). -/
structure Order (lt : α → α → Bool) : Prop where
  asymm : ∀ a b, lt a b = true → lt b a = false
  trans : ∀ a b c, lt b a = false → lt c b = false → lt c a = false

/-- The heap condition: no element is smaller than its parent. -/
def Heap (lt : α → α → Bool) (h : List α) : Prop :=
  ∀ i x y, 0 < i → h[i]? = some x → h[(i - 1) / 2]? = some y → lt x y = false

theorem swap_perm (l : List α) (i j : Nat) (x y : α) (hij : i ≠ j) (hi : i < l.length)
    (hj : l[j]? = some y) : ((l.set i y).set j x).Perm (l.set i x) := by
  classical
  rw [List.perm_iff_count]
  intro a
  obtain ⟨hjl, hjy⟩ := List.getElem?_eq_some_iff.1 hj
  rw [List.count_set (by simpa using hjl), List.count_set hi, List.count_set hi]
  have e1 : (l.set i y)[j]'(by simpa using hjl) = y := by
    rw [List.getElem_set_ne hij]; exact hjy
  rw [e1]
  have hc : ∀ (p : Nat) (hp : p < l.length), (if (l[p] == a) = true then 1 else 0) ≤ l.count a := by
    intro p hp
    split
    · rename_i h
      simp only [beq_iff_eq] at h
      exact List.count_pos_iff.2 (h ▸ List.getElem_mem hp)
    · omega
  have h1 := hc i hi
  have h2 := hc j hjl
  rw [hjy] at h2
  split <;> split <;> split <;> omega

theorem siftdown_spec {lt : α → α → Bool} (ho : Order lt) (new : α) (pos : Nat) :
    ∀ (heap : List α), pos < heap.length →
    (∀ i x y, 0 < i → i ≠ pos → (heap.set pos new)[i]? = some x →
      (heap.set pos new)[(i - 1) / 2]? = some y → lt x y = false) →
    (∀ i x y, 0 < i → 0 < pos → (i - 1) / 2 = pos → (heap.set pos new)[i]? = some x →
      (heap.set pos new)[(pos - 1) / 2]? = some y → lt x y = false) →
    Heap lt (siftdown lt new pos heap) ∧ (siftdown lt new pos heap).Perm (heap.set pos new) := by
  induction pos using Nat.strongRecOn with
  | ind pos ih =>
    intro heap hpos hA hB
    unfold siftdown
    split
    · rename_i hp
      have hpl : (pos - 1) / 2 < heap.length := by omega
      rw [List.getElem?_eq_getElem hpl]
      simp only
      generalize hpar : heap[(pos - 1) / 2] = parent
      have hpar? : heap[(pos - 1) / 2]? = some parent := by
        rw [List.getElem?_eq_getElem hpl, hpar]
      have hne : pos ≠ (pos - 1) / 2 := by omega
      split
      · rename_i hlt
        have hlp := ho.asymm _ _ hlt
        have hg : ∀ i, i ≠ pos → (heap.set pos new)[i]? = heap[i]? := by
          intro i hi; rw [List.getElem?_set_ne (Ne.symm hi)]
        have hg' : ∀ i, i ≠ pos → i ≠ (pos - 1) / 2 →
            ((heap.set pos parent).set ((pos - 1) / 2) new)[i]? = heap[i]? := by
          intro i h1 h2
          rw [List.getElem?_set_ne (Ne.symm h2), List.getElem?_set_ne (Ne.symm h1)]
        have hgp : ((heap.set pos parent).set ((pos - 1) / 2) new)[pos]? = some parent := by
          rw [List.getElem?_set_ne (Ne.symm hne), List.getElem?_set_self hpos]
        have hgpp : ((heap.set pos parent).set ((pos - 1) / 2) new)[(pos - 1) / 2]? = some new := by
          rw [List.getElem?_set_self (by simpa using hpl)]
        have := ih ((pos - 1) / 2) (by omega) (heap.set pos parent) (by simpa using hpl) ?_ ?_
        · refine ⟨this.1, this.2.trans (swap_perm _ _ _ _ _ hne hpos hpar?)⟩
        · intro i x y hi hip hx hy
          by_cases h1 : i = pos
          · subst h1
            rw [hgp] at hx
            rw [hgpp] at hy
            cases hx; cases hy; exact hlp
          · rw [hg' i h1 hip] at hx
            by_cases h2 : (i - 1) / 2 = pos
            · rw [h2, hgp] at hy
              cases hy
              exact hB i x _ hi hp h2 (by rw [hg i h1]; exact hx) (by rw [hg _ (Ne.symm hne)]; exact hpar?)
            · by_cases h3 : (i - 1) / 2 = (pos - 1) / 2
              · rw [h3, hgpp] at hy
                cases hy
                have := hA i x parent hi h1 (by rw [hg i h1]; exact hx)
                  (by rw [h3, hg _ (Ne.symm hne)]; exact hpar?)
                exact ho.trans _ _ _ hlp this
              · rw [hg' _ h2 h3] at hy
                exact hA i x y hi h1 (by rw [hg i h1]; exact hx) (by rw [hg _ h2]; exact hy)
        · intro i x y hi hp0 hip hx hy
          have hgrand : (pos - 1) / 2 ≠ ((pos - 1) / 2 - 1) / 2 := by omega
          have hgp2 : ((pos - 1) / 2 - 1) / 2 ≠ pos := by omega
          rw [hg' _ hgp2 (Ne.symm hgrand)] at hy
          have hpy := hA ((pos - 1) / 2) parent y hp0 (Ne.symm hne)
            (by rw [hg _ (Ne.symm hne)]; exact hpar?) (by rw [hg _ hgp2]; exact hy)
          by_cases h1 : i = pos
          · subst h1; rw [hgp] at hx; cases hx; exact hpy
          · rw [hg' i h1 (by omega)] at hx
            have := hA i x parent hi h1 (by rw [hg i h1]; exact hx)
              (by rw [hip, hg _ (Ne.symm hne)]; exact hpar?)
            exact ho.trans _ _ _ hpy this
      · rename_i hlt
        refine ⟨?_, List.Perm.refl _⟩
        intro i x y hi hx hy
        by_cases h1 : i = pos
        · subst h1
          rw [List.getElem?_set_self hpos] at hx
          rw [List.getElem?_set_ne hne, hpar?] at hy
          cases hx; cases hy; simpa using hlt
        · exact hA i x y hi h1 hx hy
    · rename_i hp
      refine ⟨?_, List.Perm.refl _⟩
      intro i x y hi hx hy
      exact hA i x y hi (by omega) hx hy

theorem heappush_spec {lt : α → α → Bool} (ho : Order lt) (heap : List α) (x : α)
    (hh : Heap lt heap) : Heap lt (heappush lt heap x) ∧ (heappush lt heap x).Perm (heap ++ [x]) := by
  unfold heappush
  have hset : (heap ++ [x]).set heap.length x = heap ++ [x] := by simp
  have := siftdown_spec ho x heap.length (heap ++ [x]) (by simp) ?_ ?_
  · rw [hset] at this; exact this
  · rw [hset]
    intro i a b hi hne ha hb
    have hil : i < heap.length := by
      have := (List.getElem?_eq_some_iff.1 ha).1
      simp at this; omega
    rw [List.getElem?_append_left hil] at ha
    rw [List.getElem?_append_left (by omega)] at hb
    exact hh i a b hi ha hb
  · rw [hset]
    intro i a b hi hpos hp ha hb
    have := (List.getElem?_eq_some_iff.1 ha).1
    simp at this
    omega

theorem childOf_spec {lt : α → α → Bool} (ho : Order lt) (heap : List α) (p : Nat)
    (h : 2 * p + 1 < heap.length) :
    (childOf lt heap (2 * p + 1) = 2 * p + 1 ∨ childOf lt heap (2 * p + 1) = 2 * p + 2) ∧
    ∀ i x y, 0 < i → (i - 1) / 2 = p → heap[i]? = some x →
      heap[childOf lt heap (2 * p + 1)]? = some y → lt x y = false := by
  have hirr : ∀ a, lt a a = false := by
    intro a
    cases h : lt a a
    · rfl
    · have := ho.asymm _ _ h; rw [h] at this; cases this
  unfold childOf
  rw [List.getElem?_eq_getElem h]
  cases h2 : heap[2 * p + 1 + 1]? with
  | none =>
    simp only
    refine ⟨Or.inl trivial, ?_⟩
    intro i x y hi hip hx hy
    have : i = 2 * p + 1 ∨ i = 2 * p + 1 + 1 := by omega
    rcases this with rfl | rfl
    · rw [hx] at hy; cases hy; exact hirr _
    · rw [h2] at hx; cases hx
  | some r =>
    simp only
    split
    · rename_i hlt
      refine ⟨Or.inl rfl, ?_⟩
      intro i x y hi hip hx hy
      have : i = 2 * p + 1 ∨ i = 2 * p + 1 + 1 := by omega
      rcases this with rfl | rfl
      · rw [hx] at hy; cases hy; exact hirr _
      · rw [h2] at hx
        rw [List.getElem?_eq_getElem h] at hy
        cases hx; cases hy
        exact ho.asymm _ _ hlt
    · rename_i hlt
      refine ⟨Or.inr rfl, ?_⟩
      intro i x y hi hip hx hy
      have : i = 2 * p + 1 ∨ i = 2 * p + 1 + 1 := by omega
      rcases this with rfl | rfl
      · rw [List.getElem?_eq_getElem h] at hx
        rw [h2] at hy
        cases hx; cases hy
        simpa using hlt
      · rw [hx] at hy; cases hy; exact hirr _

/-- A heap with a hole at `pos`: the condition holds between all pairs not involving `pos`, and
across the hole. -/
structure Holed (lt : α → α → Bool) (pos : Nat) (h : List α) : Prop where
  a : ∀ i x y, 0 < i → i ≠ pos → (i - 1) / 2 ≠ pos → h[i]? = some x → h[(i - 1) / 2]? = some y →
    lt x y = false
  b : ∀ i x y, 0 < i → 0 < pos → (i - 1) / 2 = pos → h[i]? = some x → h[(pos - 1) / 2]? = some y →
    lt x y = false

theorem siftup_spec {lt : α → α → Bool} (ho : Order lt) (v : α) (heap : List α) (pos : Nat)
    (hpos : pos < heap.length) (hh : Holed lt pos heap) :
    (siftup lt pos heap).2 < (siftup lt pos heap).1.length ∧
    Holed lt (siftup lt pos heap).2 (siftup lt pos heap).1 ∧
    (siftup lt pos heap).1.length ≤ 2 * (siftup lt pos heap).2 + 1 ∧
    ((siftup lt pos heap).1.set (siftup lt pos heap).2 v).Perm (heap.set pos v) := by
  generalize hn : heap.length - pos = n
  induction n using Nat.strongRecOn generalizing heap pos with
  | ind n ih =>
    unfold siftup
    split
    · rename_i hc
      have hcl := childOf_lt lt heap (2 * pos + 1) hc
      obtain ⟨hc2, hmin⟩ := childOf_spec ho heap pos hc
      generalize childOf lt heap (2 * pos + 1) = c at *
      dsimp only
      rw [List.getElem?_eq_getElem hcl]
      dsimp only
      generalize hx : heap[c] = x
      have hx? : heap[c]? = some x := by rw [List.getElem?_eq_getElem hcl, hx]
      have hcp : c ≠ pos := by omega
      have hcpar : (c - 1) / 2 = pos := by omega
      have hg : ∀ i, i ≠ pos → (heap.set pos x)[i]? = heap[i]? := by
        intro i hi; rw [List.getElem?_set_ne (Ne.symm hi)]
      have hgp : (heap.set pos x)[pos]? = some x := List.getElem?_set_self hpos
      have := ih (heap.length - c) (by omega) (heap.set pos x) c (by simpa using hcl) ?_ (by simp)
      · refine ⟨this.1, this.2.1, this.2.2.1, this.2.2.2.trans ?_⟩
        exact swap_perm _ _ _ _ _ (Ne.symm hcp) hpos hx?
      · constructor
        · intro i a b hi h1 h2 ha hb
          by_cases h3 : i = pos
          · subst h3
            rw [hgp] at ha
            rw [hg _ (by omega)] at hb
            cases ha
            exact hh.b c x b (by omega) hi hcpar hx? hb
          · rw [hg i h3] at ha
            by_cases h4 : (i - 1) / 2 = pos
            · rw [h4, hgp] at hb
              cases hb
              exact hmin i a x hi h4 ha hx?
            · rw [hg _ h4] at hb
              exact hh.a i a b hi h3 h4 ha hb
        · intro i a b hi h1 h2 ha hb
          rw [hcpar, hgp] at hb
          cases hb
          rw [hg i (by omega)] at ha
          exact hh.a i a x hi (by omega) (by omega) ha (by rw [h2]; exact hx?)
    · exact ⟨hpos, hh, by simp only; omega, List.Perm.refl _⟩

theorem Heap.min {lt : α → α → Bool} (ho : Order lt) {h : List α} (hh : Heap lt h) {r : α}
    (hr : h[0]? = some r) : ∀ x ∈ h, lt x r = false := by
  have hirr : ∀ a, lt a a = false := by
    intro a
    cases h : lt a a
    · rfl
    · have := ho.asymm _ _ h; rw [h] at this; cases this
  have key : ∀ (i : Nat) (x : α), h[i]? = some x → lt x r = false := by
    intro i
    induction i using Nat.strongRecOn with
    | ind i ih =>
      intro x hx
      by_cases hi : i = 0
      · subst hi; rw [hr] at hx; cases hx; exact hirr _
      · have hil := (List.getElem?_eq_some_iff.1 hx).1
        have hpl : (i - 1) / 2 < h.length := by omega
        have h1 := ih ((i - 1) / 2) (by omega) h[(i - 1) / 2] (List.getElem?_eq_getElem hpl)
        have h2 := hh i x h[(i - 1) / 2] (by omega) hx (List.getElem?_eq_getElem hpl)
        exact ho.trans _ _ _ h1 h2
  intro x hx
  obtain ⟨i, hi⟩ := List.mem_iff_getElem?.1 hx
  exact key i x hi

theorem heappop_spec {lt : α → α → Bool} (ho : Order lt) (heap : List α) (hh : Heap lt heap) :
    match heappop lt heap with
    | none => heap = []
    | some (x, rest) => Heap lt rest ∧ heap.Perm (x :: rest) ∧ ∀ y ∈ heap, lt y x = false := by
  unfold heappop
  rcases List.eq_nil_or_concat heap with rfl | ⟨init, last, rfl⟩
  · simp
  · have e1 : (init ++ [last]).getLast? = some last := by simp
    have e2 : (init ++ [last]).dropLast = init := by simp
    simp only [List.concat_eq_append] at *
    rw [e1, e2]
    cases init with
    | nil =>
      simp only [List.nil_append, List.mem_singleton, forall_eq]
      refine ⟨?_, List.Perm.refl _, ?_⟩
      · intro i x y hi hx; simp at hx
      · exact Heap.min ho hh (r := last) (by simp) last (by simp)
    | cons r rest =>
      simp only
      have hl : Holed lt 0 (last :: rest) := by
        constructor
        · intro i x y hi h1 h2 hx hy
          have hil : i < rest.length + 1 := by
            have := (List.getElem?_eq_some_iff.1 hx).1; simpa using this
          refine hh i x y hi ?_ ?_
          · rw [List.getElem?_append_left (by simpa using hil)]
            cases i with
            | zero => omega
            | succ i => simpa using hx
          · rw [List.getElem?_append_left (by simp; omega)]
            generalize (i - 1) / 2 = p at *
            cases p with
            | zero => exact absurd rfl h2
            | succ p => simpa using hy
        · intro i x y hi h0; omega
      obtain ⟨s1, s2, s3, s4⟩ := siftup_spec ho last (last :: rest) 0 (by simp) hl
      generalize hs : siftup lt 0 (last :: rest) = s at *
      obtain ⟨h, pos⟩ := s
      simp only at *
      have e3 : (h.set pos last).set pos last = h.set pos last := by simp
      have := siftdown_spec ho last pos (h.set pos last) (by simpa using s1) ?_ ?_
      · rw [e3] at this
        refine ⟨this.1, ?_, ?_⟩
        · refine List.Perm.trans ?_ ((this.2.trans s4).symm.cons r)
          simp only [List.cons_append, List.set_cons_zero, List.perm_cons]
          exact (List.perm_append_comm (l₁ := rest) (l₂ := [last]))
        · exact Heap.min ho hh (r := r) (by simp)
      · rw [e3]
        intro i x y hi hne hx hy
        rw [List.getElem?_set_ne (Ne.symm hne)] at hx
        have hil := (List.getElem?_eq_some_iff.1 hx).1
        have hpp : (i - 1) / 2 ≠ pos := by omega
        rw [List.getElem?_set_ne (Ne.symm hpp)] at hy
        exact s2.a i x y hi hne hpp hx hy
      · rw [e3]
        intro i x y hi h0 hip hx hy
        have hil := (List.getElem?_eq_some_iff.1 hx).1
        simp at hil
        omega

/-! Without any assumption on `lt`: nothing is lost or invented. -/

theorem siftdown_perm (lt : α → α → Bool) (new : α) (pos : Nat) : ∀ (heap : List α),
    pos < heap.length → (siftdown lt new pos heap).Perm (heap.set pos new) := by
  induction pos using Nat.strongRecOn with
  | ind pos ih =>
    intro heap hpos
    unfold siftdown
    split
    · rename_i hp
      have hpl : (pos - 1) / 2 < heap.length := by omega
      rw [List.getElem?_eq_getElem hpl]
      simp only
      split
      · exact (ih ((pos - 1) / 2) (by omega) (heap.set pos _) (by simpa using hpl)).trans
          (swap_perm _ _ _ _ _ (by omega) hpos (List.getElem?_eq_getElem hpl))
      · exact List.Perm.refl _
    · exact List.Perm.refl _

theorem siftup_perm (lt : α → α → Bool) (v : α) (heap : List α) (pos : Nat)
    (hpos : pos < heap.length) :
    (siftup lt pos heap).2 < (siftup lt pos heap).1.length ∧
    ((siftup lt pos heap).1.set (siftup lt pos heap).2 v).Perm (heap.set pos v) := by
  generalize hn : heap.length - pos = n
  induction n using Nat.strongRecOn generalizing heap pos with
  | ind n ih =>
    unfold siftup
    split
    · rename_i hc
      have hcl := childOf_lt lt heap (2 * pos + 1) hc
      have hge := childOf_ge lt heap (2 * pos + 1)
      generalize childOf lt heap (2 * pos + 1) = c at *
      dsimp only
      rw [List.getElem?_eq_getElem hcl]
      dsimp only
      have := ih (heap.length - c) (by omega) (heap.set pos heap[c]) c (by simpa using hcl) (by simp)
      exact ⟨this.1, this.2.trans
        (swap_perm _ _ _ _ _ (by omega) hpos (List.getElem?_eq_getElem hcl))⟩
    · exact ⟨hpos, List.Perm.refl _⟩

theorem heappush_perm (lt : α → α → Bool) (heap : List α) (x : α) :
    (heappush lt heap x).Perm (heap ++ [x]) := by
  have := siftdown_perm lt x heap.length (heap ++ [x]) (by simp)
  have hset : (heap ++ [x]).set heap.length x = heap ++ [x] := by simp
  rwa [hset] at this

theorem heappop_perm (lt : α → α → Bool) (heap : List α) :
    match heappop lt heap with
    | none => heap = []
    | some (x, rest) => heap.Perm (x :: rest) := by
  unfold heappop
  rcases List.eq_nil_or_concat heap with rfl | ⟨init, last, rfl⟩
  · simp
  · have e1 : (init ++ [last]).getLast? = some last := by simp
    have e2 : (init ++ [last]).dropLast = init := by simp
    simp only [List.concat_eq_append] at *
    rw [e1, e2]
    cases init with
    | nil => exact List.Perm.refl _
    | cons r rest =>
      simp only
      obtain ⟨s1, s4⟩ := siftup_perm lt last (last :: rest) 0 (by simp)
      have h3 := siftdown_perm lt last (siftup lt 0 (last :: rest)).2
        ((siftup lt 0 (last :: rest)).1.set (siftup lt 0 (last :: rest)).2 last) (by simpa using s1)
      rw [List.set_set] at h3
      refine List.Perm.trans ?_ ((h3.trans s4).symm.cons r)
      simp only [List.cons_append, List.set_cons_zero, List.perm_cons]
      exact (List.perm_append_comm (l₁ := rest) (l₂ := [last]))

end Verif.Py.Heapq
