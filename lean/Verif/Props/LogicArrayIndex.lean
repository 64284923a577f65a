import Verif.Props.LogicArray
import Verif.Props.Array
/-!
# Properties of `LogicArray`: indexing (C17) and bitwise operators (C18)
-/
namespace Verif
open Spec Logic

/-- The plain `Array` with the same elements, range and warning flag. -/
def asArr (a : LA) (l : List Logic) : Arr Logic := ⟨l, a.range, a.warn⟩

theorem la_getItem_refines {a : LA} {l : List Logic} (h : Rep a l) (i : Int) :
    (a.getItem i).1 = (asArr a l).getItem i ∧ Rep (a.getItem i).2 l ∧
      (a.getItem i).2.range = a.range ∧ (a.getItem i).2.warn = a.warn := by
  obtain ⟨h1, h2, h3, h4, -⟩ := getArray_rep h
  unfold LA.getItem
  generalize a.getArray = p at *
  obtain ⟨q, a'⟩ := p
  simp only at h1 h2 h3 h4
  subst h1
  refine ⟨?_, h2, h3, h4⟩
  simp [LA.warnItem, LA.translate, Arr.getItem, Arr.warnItem, Arr.translate, asArr, h3, h4]; rfl

theorem la_translate_eq (a : LA) (l : List Logic) (i : Int) : a.translate i = (asArr a l).translate i := rfl

theorem la_sliceBounds_eq (a : LA) (l : List Logic) (s : PySlice) :
    a.sliceBounds s = (asArr a l).sliceBounds s := rfl

theorem sliceBounds_congr (a a' : LA) (h : a'.range = a.range) (s : PySlice) :
    a'.sliceBounds s = a.sliceBounds s := by
  simp [LA.sliceBounds, LA.translate, h]

theorem la_getSlice_refines {a : LA} {l : List Logic} (h : Rep a l) (s : PySlice) :
    (∀ b, (asArr a l).getSlice s = .ok b → ∃ c, (a.getSlice s).1 = .ok c ∧ Rep c b.value ∧
      c.range = b.range ∧ c.warn = b.warn) ∧
    (∀ e, (asArr a l).getSlice s = .error e → (a.getSlice s).1 = .error e) ∧
    Rep (a.getSlice s).2 l ∧ (a.getSlice s).2.range = a.range ∧ (a.getSlice s).2.warn = a.warn := by
  obtain ⟨h1, h2, h3, h4, -⟩ := getArray_rep h
  unfold LA.getSlice
  generalize a.getArray = p at *
  obtain ⟨q, a'⟩ := p
  simp only at h1 h2 h3 h4
  subst h1
  have hw : a'.warnSlice s.start s.stop = (asArr a l).warnSlice s.start s.stop := by
    simp [LA.warnSlice, Arr.warnSlice, asArr, h3, h4, LA.len, Arr.len]; rfl
  have hb : a'.sliceBounds s = (asArr a l).sliceBounds s := by
    rw [sliceBounds_congr a a' h3, la_sliceBounds_eq a l]
  simp only [hw, hb, h3]
  have hr : (asArr a l).range = a.range := rfl
  have hval : (asArr a l).value = l := rfl
  unfold Arr.getSlice
  rw [hr, hval]
  refine ⟨?_, ?_, h2, trivial, h4⟩ <;>
  · cases (asArr a l).warnSlice s.start s.stop with
    | error e => simp [bind, Except.bind]
    | ok u =>
      cases (asArr a l).sliceBounds s with
      | error e => simp [bind, Except.bind]
      | ok q =>
        obtain ⟨st, sp, si, sj⟩ := q
        cases a.range.direction with
        | error e => simp [bind, Except.bind]
        | ok d =>
          simp only [bind, Except.bind, Arr.new, LA.new, LA.normRange, logics_obj]
          by_cases hlen : (pyListGetSlice l si (sj + 1)).length = (Range.mk3 st d sp).len
          · simp [hlen]
            try exact rep_ofArr _ _ (Range.valid_mk3 _ _ _) hlen false
          · simp [hlen]

theorem la_setItem_refines {a : LA} {l : List Logic} (h : Rep a l) (i : Int) (v : Logic.Lit) :
    (∀ o b, Logic.new .logic v = .ok o → (asArr a l).setItem i o.v = .ok b →
      (a.setItem i v).1 = .ok () ∧ Rep (a.setItem i v).2 b.value) ∧
    (∀ o e, Logic.new .logic v = .ok o → (asArr a l).setItem i o.v = .error e →
      (a.setItem i v).1 = .error e ∧ Rep (a.setItem i v).2 l) ∧
    (∀ e, Logic.new .logic v = .error e →
      ∃ e', (a.setItem i v).1 = .error e' ∧ Rep (a.setItem i v).2 l) ∧
    (a.setItem i v).2.range = a.range ∧ (a.setItem i v).2.warn = a.warn := by
  obtain ⟨h1, h2, h3, h4, h5⟩ := getArray_rep h
  unfold LA.setItem
  generalize a.getArray = p at *
  obtain ⟨q, a'⟩ := p
  simp only at h1 h2 h3 h4 h5
  subst h1
  have hkeep : Rep { a' with str := none, int := none } l :=
    ⟨h2.len, h2.valid, h2.arr, by simp, by simp, fun _ => Or.inr ⟨rfl, by simp [h5]⟩⟩
  have ht : LA.translate { a' with str := none, int := none } i = (asArr a l).translate i := by
    simp [LA.translate, Arr.translate, asArr, h3]; rfl
  simp only [ht]
  unfold Arr.setItem
  have hval : (asArr a l).value = l := rfl
  rw [hval]
  refine ⟨?_, ?_, ?_, ?_, ?_⟩
  · intro o b ho hb
    cases hk : (asArr a l).translate i with
    | error e => simp [hk, bind, Except.bind] at hb
    | ok k =>
      simp only [hk, bind, Except.bind] at hb ⊢
      simp only [ho]
      cases hs : pyListSet l k o.v with
      | error e => simp [hs] at hb
      | ok l' =>
        simp [hs] at hb ⊢
        subst hb
        have hlen : l'.length = l.length := by
          unfold pyListSet at hs
          split at hs <;> simp at hs
          rw [← hs]; simp
        exact ⟨by rw [hlen]; exact h2.len, h2.valid, fun m hm => by simpa using hm.symm, by simp,
          by simp, fun _ => Or.inr ⟨rfl, by simp⟩⟩
  · intro o e ho hb
    cases hk : (asArr a l).translate i with
    | error e' =>
      simp only [hk, bind, Except.bind] at hb ⊢
      simp at hb; subst hb
      exact ⟨rfl, hkeep⟩
    | ok k =>
      simp only [hk, bind, Except.bind] at hb ⊢
      simp only [ho]
      cases hs : pyListSet l k o.v with
      | error e' => simp [hs] at hb; subst hb; exact ⟨rfl, hkeep⟩
      | ok l' => simp [hs] at hb
  · intro e ho
    cases hk : (asArr a l).translate i with
    | error e' => exact ⟨e', rfl, hkeep⟩
    | ok k =>
      simp only [bind, Except.bind, ho]
      exact ⟨e, rfl, hkeep⟩
  · split <;> exact h3
  · split <;> exact h4

/-! ## C17 for `LogicArray` -/

/-- C17: reading index `i` of a `LogicArray` holding `l`. -/
theorem C17_logicarray_get (a : LA) (l : List Logic) (h : Rep a l) (hw : a.warn = false)
    (L R : Int) (d : Dir) (hr : a.range = .mk3 L d R) (i : Int) :
    (∀ v, (a.getItem i).1 = .ok v ↔ arrAt L d l i = some v) ∧
    (between L d R i → ∃ v, (a.getItem i).1 = .ok v) ∧
    (¬ between L d R i → (a.getItem i).1 = .error .indexError) ∧
    Rep (a.getItem i).2 l ∧ (a.getItem i).2.range = a.range := by
  obtain ⟨h1, h2, h3, -⟩ := la_getItem_refines h i
  rw [h1]
  obtain ⟨x, y, z⟩ := C17_array_get (asArr a l) ⟨h.len, h.valid⟩ hw L R d hr i
  exact ⟨x, y, z, h2, h3⟩

/-- C17: writing one index of a `LogicArray`. It succeeds exactly for an index inside the range and
a valid literal; afterwards that index reads the denoted value and all others, the range and the
length are unchanged. A failing assignment leaves the elements as they were. -/
theorem C17_logicarray_set (a : LA) (l : List Logic) (h : Rep a l) (hw : a.warn = false)
    (L R : Int) (d : Dir) (hr : a.range = .mk3 L d R) (i : Int) (v : Logic.Lit) :
    (a.setItem i v).2.range = a.range ∧
    (∀ o, Logic.new .logic v = .ok o → between L d R i →
      (a.setItem i v).1 = .ok () ∧ (∃ l', Rep (a.setItem i v).2 l') ∧
      ((a.setItem i v).2.getItem i).1 = .ok o.v ∧
      ∀ j, j ≠ i → ((a.setItem i v).2.getItem j).1 = (a.getItem j).1) ∧
    (¬ between L d R i → (a.setItem i v).1 = .error .indexError ∧ Rep (a.setItem i v).2 l) ∧
    (∀ e, between L d R i → Logic.new .logic v = .error e →
      (a.setItem i v).1 = .error e ∧ Rep (a.setItem i v).2 l) := by
  obtain ⟨r1, r2, r3, r4, r5⟩ := la_setItem_refines h i v
  refine ⟨r4, ?_, ?_, ?_⟩
  · intro o ho hb
    obtain ⟨b, b1, b2, b3, b4, b5, b6⟩ :=
      (C17_array_set (asArr a l) ⟨h.len, h.valid⟩ hw L R d hr i o.v).2 hb
    obtain ⟨s1, s2⟩ := r1 o b ho b1
    have heq : asArr (a.setItem i v).2 b.value = b := by
      have e1 : b.range = a.range := b3
      unfold asArr
      rw [r4, r5, ← e1, hw, ← b4]
    refine ⟨s1, ⟨_, s2⟩, ?_, ?_⟩
    · rw [(la_getItem_refines s2 i).1, heq, b5]
    · intro j hj
      rw [(la_getItem_refines s2 j).1, heq, b6 j hj, (la_getItem_refines h j).1]
  · intro hb
    have he : ∀ x, (asArr a l).setItem i x = .error .indexError := fun x =>
      (C17_array_set (asArr a l) ⟨h.len, h.valid⟩ hw L R d hr i x).1 hb
    cases ho : Logic.new .logic v with
    | ok o => exact r2 o _ ho (he o.v)
    | error e =>
      obtain ⟨e', h1, h2⟩ := r3 e ho
      refine ⟨?_, h2⟩
      obtain ⟨g1, g2, g3, g4, g5⟩ := getArray_rep h
      unfold LA.setItem
      generalize a.getArray = p at *
      obtain ⟨q, a'⟩ := p
      simp only at g1 g3
      subst g1
      rcases Arr.translate_pos (asArr a l) L d R i hr with ⟨_, t2⟩ | ⟨t1, _⟩
      · exact absurd t2 hb
      · have : LA.translate { a' with str := none, int := none } i = .error .indexError := by
          rw [← t1]; simp [LA.translate, Arr.translate, asArr, g3]; rfl
        simp [this, bind, Except.bind]
  · intro e hb ho
    obtain ⟨e', h1, h2⟩ := r3 e ho
    refine ⟨?_, h2⟩
    obtain ⟨g1, g2, g3, g4, g5⟩ := getArray_rep h
    unfold LA.setItem
    generalize a.getArray = p at *
    obtain ⟨q, a'⟩ := p
    simp only at g1 g3
    subst g1
    rcases Arr.translate_pos (asArr a l) L d R i hr with ⟨t1, _⟩ | ⟨_, t2⟩
    · have : LA.translate { a' with str := none, int := none } i = .ok (posOf L d i) := by
        rw [← t1]; simp [LA.translate, Arr.translate, asArr, g3]; rfl
      simp [this, bind, Except.bind, ho]
    · exact absurd hb t2

/-- C17: reading a slice of a `LogicArray`. -/
theorem C17_logicarray_getSlice (a : LA) (l : List Logic) (h : Rep a l) (hw : a.warn = false)
    (L R : Int) (d : Dir) (hr : a.range = .mk3 L d R) (s : PySlice) :
    (¬ (s.step = none ∧ sliceOk L d R (s.start.getD L) (s.stop.getD R)) →
      (a.getSlice s).1 = .error .indexError) ∧
    (s.step = none ∧ sliceOk L d R (s.start.getD L) (s.stop.getD R) →
      ∃ c m, (a.getSlice s).1 = .ok c ∧ Rep c m ∧ c.range = .mk3 (s.start.getD L) d (s.stop.getD R) ∧
        ∀ k, between (s.start.getD L) d (s.stop.getD R) k → (c.getItem k).1 = (a.getItem k).1) ∧
    Rep (a.getSlice s).2 l ∧ (a.getSlice s).2.range = a.range := by
  obtain ⟨r1, r2, r3, r4, r5⟩ := la_getSlice_refines h s
  obtain ⟨s1, s2⟩ := C17_array_getSlice (asArr a l) ⟨h.len, h.valid⟩ hw L R d hr s
  refine ⟨fun hn => r2 _ (s1 hn), fun hp => ?_, r3, r4⟩
  obtain ⟨b, b1, b2, b3, b4, b5⟩ := s2 hp
  obtain ⟨c, c1, c2, c3, c4⟩ := r1 b b1
  refine ⟨c, b.value, c1, c2, by rw [c3, b3], ?_⟩
  intro k hk
  have : asArr c b.value = b := by unfold asArr; rw [c3, c4]
  rw [(la_getItem_refines c2 k).1, this, b5 k hk, (la_getItem_refines h k).1]

/-- The elements denoted by a right-hand side that fits `n` elements. -/
theorem new_int_rep (v : LAVal) (n : Int) (t : LA) (hv : ∀ o, v = .obj o → ∃ m, Rep o m)
    (h : LA.new v (.int n) = .ok t) : ∃ vs, Rep t vs ∧ (vs.length : Int) = max n 0 := by
  have hlen : ((Range.mk3 (n - 1) .downto 0).len : Int) = max n 0 := by
    rw [Range.len_downto]; omega
  have hvd := Range.valid_mk3 (n - 1) .downto 0
  simp only [LA.new, LA.normRange] at h
  cases v with
  | str s =>
    simp only at h
    split at h
    · rename_i hall
      split at h
      · simp at h
      · rename_i hl
        simp at h hl
        obtain ⟨m, hm⟩ := exists_chrs _ hall
        rw [hm] at h hl
        subst h
        simp at hl
        exact ⟨m, rep_ofStr m _ hvd hl false, by omega⟩
    · simp at h
  | int i =>
    simp only at h
    split at h
    · simp at h
    · rename_i h0
      have hpos : 0 < (Range.mk3 (n - 1) .downto 0).len := by omega
      generalize hr : Range.mk3 (n - 1) Dir.downto 0 = r at *
      have hb := C12_int_ctor i r hvd
      by_cases hok : 0 < r.len ∧ -(2 ^ (r.len - 1)) ≤ i ∧ i < 2 ^ r.len
      · obtain ⟨a, a1, a2, a3, -⟩ := hb.1 hok.1 hok.2.1 hok.2.2
        have : a = t := by
          simp only [LA.new, LA.normRange, h0, if_false] at a1
          rw [a1] at h; simpa using h
        subst this
        exact ⟨_, a3, by simp; omega⟩
      · have := hb.2 hok
        simp only [LA.new, LA.normRange, h0, if_false] at this
        rw [this] at h
        simp at h
  | obj o =>
    simp only at h
    split at h
    · simp at h
    · rename_i hl
      simp at h hl
      subst h
      obtain ⟨m, hm⟩ := hv o rfl
      have hml : m.length = (Range.mk3 (n - 1) .downto 0).len := by rw [hl, hm.len]; rfl
      exact ⟨m, ⟨hml, hvd, hm.arr, hm.str, hm.int, hm.some⟩, by omega⟩
  | iter l =>
    simp only at h
    cases hls : LA.logics l with
    | error e => simp [hls] at h
    | ok m =>
      simp only [hls] at h
      split at h
      · simp at h
      · rename_i hl
        simp at h hl
        subst h
        exact ⟨m, rep_ofArr m _ hvd hl false, by omega⟩

/-- C17: writing a slice of a `LogicArray` with any right-hand side (string, integer, iterable or
another array, also itself): illegal bounds raise `IndexError`; a right-hand side that cannot be made
into an array of the slice's length raises and changes nothing; otherwise the slice reads the new
elements in order and everything else is unchanged. -/
theorem C17_logicarray_setSlice (a : LA) (l : List Logic) (h : Rep a l) (hw : a.warn = false)
    (L R : Int) (d : Dir) (hr : a.range = .mk3 L d R) (s : PySlice) (v : LAVal)
    (hv : ∀ o, v = .obj o → ∃ m, Rep o m) :
    (a.setSlice s (.val v)).2.range = a.range ∧
    (¬ (s.step = none ∧ sliceOk L d R (s.start.getD L) (s.stop.getD R)) →
      (a.setSlice s (.val v)).1 = .error .indexError ∧ Rep (a.setSlice s (.val v)).2 l) ∧
    (s.step = none ∧ sliceOk L d R (s.start.getD L) (s.stop.getD R) →
      (∀ e, LA.new v (.int (Range.mk3 (s.start.getD L) d (s.stop.getD R)).len) = .error e →
        (a.setSlice s (.val v)).1 = .error e ∧ Rep (a.setSlice s (.val v)).2 l) ∧
      (∀ t vs, LA.new v (.int (Range.mk3 (s.start.getD L) d (s.stop.getD R)).len) = .ok t → Rep t vs →
        (a.setSlice s (.val v)).1 = .ok () ∧ (∃ l', Rep (a.setSlice s (.val v)).2 l') ∧
        (∀ k, between (s.start.getD L) d (s.stop.getD R) k →
          ∃ x, arrAt (s.start.getD L) d vs k = some x ∧
            ((a.setSlice s (.val v)).2.getItem k).1 = .ok x) ∧
        (∀ k, ¬ between (s.start.getD L) d (s.stop.getD R) k →
          ((a.setSlice s (.val v)).2.getItem k).1 = (a.getItem k).1))) := by
  have hgi := fun k => (la_getItem_refines h k).1
  obtain ⟨g1, g2, g3, g4, g5⟩ := getArray_rep h
  obtain ⟨p1, -, p3⟩ := C17_array_setSlice (asArr a l) ⟨h.len, h.valid⟩ hw L R d hr s ([] : List Logic)
  have hbnd := Arr.sliceBounds_pos (asArr a l) L d R s hr
  have hst := fun vs => (C17_array_setSlice (asArr a l) ⟨h.len, h.valid⟩ hw L R d hr s vs)
  unfold LA.setSlice
  generalize hga : a.getArray = p at *
  obtain ⟨q, a'⟩ := p
  simp only at g1 g2 g3 g4 g5
  subst g1
  have hkeep : Rep { a' with str := none, int := none } l :=
    ⟨g2.len, g2.valid, g2.arr, by simp, by simp, fun _ => Or.inr ⟨rfl, by simp [g5]⟩⟩
  have hbb : LA.sliceBounds { a' with str := none, int := none } s = (asArr a l).sliceBounds s := by
    rw [← la_sliceBounds_eq a l]; exact sliceBounds_congr a _ g3 s
  simp only [hbb]
  refine ⟨?_, ?_, ?_⟩
  · split <;> exact g3
  · intro hn
    rcases hbnd with ⟨_, b2, b3⟩ | ⟨b1, _⟩
    · exact absurd ⟨b2, b3⟩ hn
    · simp only [b1, bind, Except.bind]; exact ⟨trivial, hkeep⟩
  · intro hok
    rcases hbnd with ⟨b1, b2, b3⟩ | ⟨_, b2⟩
    · have e0 : posOf L d (s.stop.getD R) - posOf L d (s.start.getD L) + 1 =
          (Range.mk3 (s.start.getD L) d (s.stop.getD R)).len := by
        have hm := len_mk3 (s.start.getD L) d (s.stop.getD R)
        obtain ⟨_, _, b3⟩ := b3
        have e : posOf (s.start.getD L) d (s.stop.getD R) =
            posOf L d (s.stop.getD R) - posOf L d (s.start.getD L) := by
          cases d <;> simp only [posOf] <;> omega
        omega
      simp only [b1, bind, Except.bind, e0]
      constructor
      · intro e he
        simp only [LA.SliceVal.toVal, he]; exact ⟨trivial, hkeep⟩
      · intro t vs ht hvs
        have hvl : vs.length = (Range.mk3 (s.start.getD L) d (s.stop.getD R)).len := by
          obtain ⟨vs', hv1, hv2⟩ := new_int_rep v _ t hv ht
          have := hvs.unique hv1
          subst this
          omega
        obtain ⟨b, c1, c2, c3, c4, c5, c6⟩ := (hst vs).2.2 hok hvl
        simp only [LA.SliceVal.toVal, ht, (getArray_rep hvs).1]
        have hval : b.value = pyListSetSlice l (posOf L d (s.start.getD L))
            (posOf L d (s.stop.getD R) + 1) vs := by
          unfold Arr.setSlice at c1
          simp only [b1, bind, Except.bind] at c1
          rw [if_neg (by rw [e0]; omega)] at c1
          simp at c1
          rw [← c1]; rfl
        rw [← hval]
        have hrep' : Rep { a' with str := none, int := none, arr := some b.value } b.value := by
          refine ⟨?_, g2.valid, fun m hm => by simpa using hm.symm, by simp, by simp,
            fun _ => Or.inr ⟨rfl, by simp⟩⟩
          rw [c2.1, c3]
          show a.range.len = a'.range.len
          rw [g3]
        have heq : asArr { a' with str := none, int := none, arr := some b.value } b.value = b := by
          have e1 : b.range = a.range := c3
          unfold asArr
          show Arr.mk b.value a'.range a'.warn = b
          rw [g3, g4, ← e1, hw, ← c4]
        refine ⟨trivial, ⟨_, hrep'⟩, ?_, ?_⟩
        · intro k hk
          obtain ⟨x, x1, x2⟩ := c5 k hk
          refine ⟨x, x1, ?_⟩
          rw [(la_getItem_refines hrep' k).1, heq, x2]
        · intro k hk
          rw [(la_getItem_refines hrep' k).1, heq, c6 k hk, ← hgi k]
    · exact absurd hok b2

example : ∃ a, LA.new (.str "10XZ".toList) (.range (.mk3 1 .to 4)) = .ok a ∧ Rep a [F1, F0, X, Z] ∧
    a.warn = false ∧ (a.getItem 2).1 = .ok F0 ∧ (a.setSlice ⟨some 2, some 3, none⟩
      (.val (.int 3))).2.getStr.1 = .ok "111Z".toList :=
  ⟨_, rfl, rep_ofStr [F1, F0, X, Z] _ (Range.valid_mk3 _ _ _) (by decide) false, rfl, by decide, by decide +kernel⟩

/-! ## C18 -/

theorem mapM_binop (f : Logic → Logic → Logic) (l m : List Logic) :
    (l.zip m).mapM (fun p => Logic.binop f ⟨.logic, p.1⟩ ⟨.logic, p.2⟩) =
      (.ok ((l.zip m).map fun p => ⟨.logic, f p.1 p.2⟩) : PyM (List Obj)) := by
  induction l generalizing m with
  | nil => rfl
  | cons x xs ih =>
    cases m with
    | nil => rfl
    | cons y ys =>
      have : Logic.binop f ⟨.logic, x⟩ ⟨.logic, y⟩ = .ok ⟨.logic, f x y⟩ := by
        simp [binop, opMethod, isInstance, Logic.new, Cls.allows]
      simp only [List.zip_cons_cons, List.mapM_cons, this, ih, List.map_cons]
      rfl

theorem mapM_inv (l : List Logic) :
    l.mapM (fun v => Logic.inv ⟨.logic, v⟩) =
      (.ok (l.map fun v => ⟨.logic, v.not⟩) : PyM (List Obj)) := by
  induction l with
  | nil => rfl
  | cons x xs ih =>
    have : Logic.inv ⟨.logic, x⟩ = .ok ⟨.logic, x.not⟩ := by simp [inv, Logic.new, Cls.allows]
    simp only [List.mapM_cons, this, ih, List.map_cons]
    rfl

theorem new_iter_obj (l : List Logic) :
    LA.new (.iter ((l.map fun v => (⟨.logic, v⟩ : Obj)).map .obj)) .none =
      .ok ⟨some l, none, none, LA.defaultRange l.length, false⟩ := by
  have : LA.logics ((l.map fun v => (⟨.logic, v⟩ : Obj)).map .obj) = .ok l := by
    rw [List.map_map]; exact logics_obj l
  simp only [LA.new, LA.normRange, this]

theorem defaultRange_len (n : Nat) : (LA.defaultRange n).len = n := by
  rw [LA.defaultRange, Range.len_downto]; omega

/-- C18: `a & b`, `a | b`, `a ^ b` of equal-length arrays: the elementwise operation in order, with
range `len-1 downto 0`; operands keep their elements; different lengths raise `ValueError`. -/
theorem C18_bitop (f : Logic → Logic → Logic) (a b : LA) (l m : List Logic) (ha : Rep a l) (hb : Rep b m) :
    (l.length ≠ m.length → (LA.bitop f a b).1 = .error .valueError) ∧
    (l.length = m.length → ∃ c, (LA.bitop f a b).1 = .ok c ∧ Rep c (List.zipWith f l m) ∧
      c.range = .mk3 ((l.length : Int) - 1) .downto 0) ∧
    Rep (LA.bitop f a b).2.1 l ∧ Rep (LA.bitop f a b).2.2 m := by
  unfold LA.bitop
  rw [ha.range_len, hb.range_len]
  by_cases hlen : l.length = m.length
  · obtain ⟨h1, h2, -⟩ := getArray_rep ha
    obtain ⟨k1, k2, -⟩ := getArray_rep hb
    generalize a.getArray = p at *
    generalize b.getArray = q at *
    obtain ⟨p1, a'⟩ := p
    obtain ⟨q1, b'⟩ := q
    simp only at h1 h2 k1 k2
    subst h1 k1
    have hz : (l.zip m).map (fun p => (⟨.logic, f p.1 p.2⟩ : Obj)) =
        (List.zipWith f l m).map fun v => ⟨.logic, v⟩ := by
      rw [List.zip, List.map_zipWith, List.map_zipWith]
    simp only [hlen, ne_eq, not_true, if_false, mapM_binop, hz, new_iter_obj]
    refine ⟨fun h => absurd h (by simp), fun _ => ⟨_, rfl, ?_, ?_⟩, h2, k2⟩
    · exact rep_ofArr _ _ (Range.valid_mk3 _ _ _) (defaultRange_len _).symm false
    · simp [LA.defaultRange, hlen]
  · simp only [hlen, ne_eq, not_false_iff, if_true]
    exact ⟨fun _ => trivial, fun h => absurd h (by simp), ha, hb⟩

/-- C18: `~a` is elementwise. -/
theorem C18_invert (a : LA) (l : List Logic) (ha : Rep a l) :
    ∃ c, a.invert.1 = .ok c ∧ Rep c (l.map Logic.not) ∧ Rep a.invert.2 l := by
  unfold LA.invert
  obtain ⟨h1, h2, -⟩ := getArray_rep ha
  generalize a.getArray = p at *
  obtain ⟨p1, a'⟩ := p
  simp only at h1 h2
  subst h1
  have hz : l.map (fun v => (⟨.logic, v.not⟩ : Obj)) = (l.map Logic.not).map fun v => ⟨.logic, v⟩ := by
    rw [List.map_map]; rfl
  simp only [mapM_inv, hz, new_iter_obj]
  refine ⟨_, rfl, ?_, h2⟩
  exact rep_ofArr _ _ (Range.valid_mk3 _ _ _) (defaultRange_len _).symm false

/-- C18: the algebraic laws lift to arrays of any length. -/
theorem C18_laws (l m n : List Logic) :
    List.zipWith Logic.and l m = List.zipWith Logic.and m l ∧
    List.zipWith Logic.or l m = List.zipWith Logic.or m l ∧
    List.zipWith Logic.xor l m = List.zipWith Logic.xor m l ∧
    List.zipWith Logic.and (List.zipWith Logic.and l m) n = List.zipWith Logic.and l (List.zipWith Logic.and m n) ∧
    List.zipWith Logic.or (List.zipWith Logic.or l m) n = List.zipWith Logic.or l (List.zipWith Logic.or m n) ∧
    List.zipWith Logic.xor (List.zipWith Logic.xor l m) n = List.zipWith Logic.xor l (List.zipWith Logic.xor m n) ∧
    (List.zipWith Logic.and l m).map Logic.not = List.zipWith Logic.or (l.map Logic.not) (m.map Logic.not) ∧
    (List.zipWith Logic.or l m).map Logic.not = List.zipWith Logic.and (l.map Logic.not) (m.map Logic.not) := by
  have comm : ∀ (f : Logic → Logic → Logic), (∀ a b, f a b = f b a) → ∀ l m : List Logic,
      List.zipWith f l m = List.zipWith f m l := by
    intro f hf l
    induction l with
    | nil => intro m; cases m <;> rfl
    | cons x xs ih =>
      intro m
      cases m with
      | nil => rfl
      | cons y ys => simp [hf x y, ih ys]
  have assoc : ∀ (f : Logic → Logic → Logic), (∀ a b c, f (f a b) c = f a (f b c)) →
      ∀ l m n : List Logic, List.zipWith f (List.zipWith f l m) n = List.zipWith f l (List.zipWith f m n) := by
    intro f hf l
    induction l with
    | nil => intro m n; simp
    | cons x xs ih =>
      intro m n
      cases m with
      | nil => simp
      | cons y ys =>
        cases n with
        | nil => simp
        | cons z zs => simp [hf, ih]
  have dm : ∀ (f g : Logic → Logic → Logic), (∀ a b, (f a b).not = g a.not b.not) →
      ∀ l m : List Logic, (List.zipWith f l m).map Logic.not = List.zipWith g (l.map Logic.not) (m.map Logic.not) := by
    intro f g hfg l
    induction l with
    | nil => intro m; simp
    | cons x xs ih =>
      intro m
      cases m with
      | nil => simp
      | cons y ys => simp [hfg, ih]
  refine ⟨comm _ ?_ l m, comm _ ?_ l m, comm _ ?_ l m, assoc _ ?_ l m n, assoc _ ?_ l m n, assoc _ ?_ l m n,
    dm _ _ ?_ l m, dm _ _ ?_ l m⟩
  all_goals first
    | (intro a b c; cases a <;> cases b <;> cases c <;> decide)
    | (intro a b; cases a <;> cases b <;> decide)

/-- The Boolean list read as a number. -/
theorem unsigned_zipWith (f : Logic → Logic → Logic) (g : Nat → Nat → Nat) (gb : Bool → Bool → Bool)
    (hf : ∀ a b x y, boolVal a = some x → boolVal b = some y → boolVal (f a b) = some (gb x y))
    (hg : ∀ x y i, (g x y).testBit i = gb (x.testBit i) (y.testBit i)) (h0 : gb false false = false)
    (l m : List Logic) (x y : Nat) (hl : l.length = m.length)
    (hx : unsigned l = some x) (hy : unsigned m = some y) :
    unsigned (List.zipWith f l m) = some (g x y) := by
  have bitTop : ∀ (l : List Logic) (v : Nat), unsigned l = some v → ∀ i, i ≥ l.length → v.testBit i = false := by
    intro l v hv i hi
    exact Nat.testBit_lt_two_pow (Nat.lt_of_lt_of_le (unsigned_lt hv) (Nat.pow_le_pow_right (by omega) hi))
  induction l generalizing m x y with
  | nil =>
    have : m = [] := by
      cases m
      · rfl
      · simp at hl
    subst this
    simp [unsigned] at hx hy ⊢
    subst hx hy
    apply Nat.eq_of_testBit_eq
    intro i
    rw [hg]
    simp [h0]
  | cons a as ih =>
    cases m with
    | nil => simp at hl
    | cons b bs =>
      simp only [unsigned, bit] at hx hy
      cases ha : boolVal a with
      | none => simp [ha] at hx
      | some p =>
        cases hb : boolVal b with
        | none => simp [hb] at hy
        | some q =>
          cases hu : unsigned as with
          | none => simp [ha, hu] at hx
          | some u =>
            cases hv : unsigned bs with
            | none => simp [hb, hv] at hy
            | some v =>
              simp at hl
              simp [ha, hu] at hx
              simp [hb, hv] at hy
              have hr := ih bs u v hl hu hv
              simp only [List.zipWith_cons_cons, unsigned, hr, bit, hf a b p q ha hb]
              simp only [List.length_zipWith, hl, Nat.min_self]
              rw [hl] at hx
              have hlu := unsigned_lt hu
              have hlv := unsigned_lt hv
              rw [hl] at hlu
              have hlg : g u v < 2 ^ bs.length := by
                have := unsigned_lt hr
                simpa [hl] using this
              show some _ = some _
              congr 1
              apply Nat.eq_of_testBit_eq
              intro i
              rw [hg, ← hx, ← hy]
              have tb : ∀ (c : Bool) (w : Nat), w < 2 ^ bs.length →
                  ((if c = true then 1 else 0) * 2 ^ bs.length + w).testBit i =
                    if i < bs.length then w.testBit i else (i == bs.length && c) := by
                intro c w hw
                rw [Nat.mul_comm, Nat.testBit_two_pow_mul_add _ hw]
                split
                · rfl
                · rename_i hi
                  cases c
                  · simp
                  · simp only [if_true, Bool.and_true]
                    have h2 : (1 : Nat).testBit (i - bs.length) = decide (i - bs.length = 0) := by
                      rw [show (1 : Nat) = 2 ^ 0 from rfl, Nat.testBit_two_pow]
                      simp only [eq_comm]
                    rw [h2]
                    by_cases h4 : i = bs.length
                    · simp [h4]
                    · have : i - bs.length ≠ 0 := by omega
                      simp [this, h4]
              rw [tb _ _ hlg, tb _ _ hlu, tb _ _ hlv, hg]
              by_cases hi : i < bs.length
              · rw [if_pos hi, if_pos hi, if_pos hi]
              · rw [if_neg hi, if_neg hi, if_neg hi]
                by_cases h4 : i = bs.length
                · simp [h4]
                · have h5 : (i == bs.length) = false := by simpa using h4
                  rw [h5, Bool.false_and, Bool.false_and, Bool.false_and, h0]

/-- C18: on resolvable arrays the operators agree with integer `& | ^` of `to_unsigned()`. -/
theorem C18_integers (l m : List Logic) (x y : Nat) (hl : l.length = m.length)
    (hx : unsigned l = some x) (hy : unsigned m = some y) :
    unsigned (List.zipWith Logic.and l m) = some (x &&& y) ∧
    unsigned (List.zipWith Logic.or l m) = some (x ||| y) ∧
    unsigned (List.zipWith Logic.xor l m) = some (x ^^^ y) := by
  refine ⟨unsigned_zipWith _ _ _ ?_ Nat.testBit_and rfl l m x y hl hx hy,
    unsigned_zipWith _ _ _ ?_ Nat.testBit_or rfl l m x y hl hx hy,
    unsigned_zipWith _ _ _ ?_ Nat.testBit_xor rfl l m x y hl hx hy⟩
  all_goals
    intro a b x y ha hb
    cases a <;> cases b <;> simp [boolVal] at ha hb <;> subst ha hb <;> decide

/-- C18: on a resolvable array of `n` elements `~` is `2**n - 1 - x`. -/
theorem C18_invert_integer (l : List Logic) (x : Nat) (hx : unsigned l = some x) :
    unsigned (l.map Logic.not) = some (2 ^ l.length - 1 - x) := by
  induction l generalizing x with
  | nil => simp [unsigned] at hx ⊢
  | cons a as ih =>
    simp only [unsigned, bit] at hx
    cases ha : boolVal a with
    | none => simp [ha] at hx
    | some p =>
      cases hu : unsigned as with
      | none => simp [ha, hu] at hx
      | some u =>
        simp [ha, hu] at hx
        have hlu := unsigned_lt hu
        have hn : boolVal a.not = some (!p) := by
          cases a <;> simp [boolVal] at ha <;> subst ha <;> decide
        simp only [List.map_cons, unsigned, ih u hu, bit, hn, List.length_map, List.length_cons, Nat.pow_succ]
        cases p <;> simp at hx ⊢ <;> omega

example : unsigned [F1, H, F0] = some 6 ∧ unsigned [F0, F1, F1] = some 3 ∧
    unsigned (List.zipWith Logic.and [F1, H, F0] [F0, F1, F1]) = some 2 := by decide

end Verif
