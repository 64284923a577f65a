import Verif.Lemmas.LogicArrayProg
/-!
# `LogicArray` histories (C16) and equality (C19)
-/
namespace Verif
open Spec Logic LA

/-- Two stores with pairwise equal content (elements, range); cached representations may differ. -/
def SameSt (s t : St) : Prop :=
  s.rng = t.rng ∧ s.objs.length = t.objs.length ∧
  ∀ (k : Nat) a b, s.objs[k]? = some a → t.objs[k]? = some b → Same a b

/-- Range arguments are `Range` objects a client can build (see `Range.Valid`). -/
def ValidCmd : Cmd → Prop
  | .new _ r => RangeArg.Valid r
  | .fromUnsigned _ r _ => RangeArg.Valid r
  | .fromSigned _ r _ => RangeArg.Valid r
  | .fromBytes _ r _ => ∀ x, r = some x → RangeArg.Valid x
  | .make _ (.new r) => RangeArg.Valid r
  | .setRange _ r => r.Valid
  | _ => True

/-- No command compares two arrays one of which contains `L`, `H` or `-`. -/
def CmpOk (s : St) : Cmd → Prop
  | .eqObj k j => ∀ a b l m, s.objs[k]? = some a → s.objs[j]? = some b → a.iter.1 = .ok l →
      b.iter.1 = .ok m → plain l ∧ plain m
  | _ => True

/-- All comparisons along a run are of that kind. -/
def RunOk (rx : Option Resolver) : St → List Cmd → Prop
  | _, [] => True
  | s, c :: cs => CmpOk s c ∧ RunOk rx (exec rx s c).2 cs

theorem SameSt.set {s t : St} {k : Nat} {a b : LA} (h : SameSt s t) (hab : Same a b) {g g' : Rng} (hg : g = g') :
    SameSt ⟨s.objs.set k a, g⟩ ⟨t.objs.set k b, g'⟩ := by
  refine ⟨hg, by simpa using h.2.1, ?_⟩
  intro i x y hx hy
  simp only at hx hy
  rw [List.getElem?_set] at hx hy
  by_cases hk : k = i
  · subst hk
    simp only [if_true] at hx hy
    by_cases hl : k < s.objs.length
    · have hl' : k < t.objs.length := by rw [← h.2.1]; exact hl
      simp only [hl, hl', if_true, Option.some.injEq] at hx hy
      subst hx hy; exact hab
    · simp [hl] at hx
  · simp only [hk, if_false] at hx hy
    exact h.2.2 i x y hx hy

theorem SameSt.add {s t : St} {q q' : PyM LA} (h : SameSt s t) (hq : SameRes q q') :
    (addObj s q).1 = (addObj t q').1 ∧ SameSt (addObj s q).2 (addObj t q').2 := by
  cases q with
  | error e => cases q' with
    | error e' => simp only [SameRes] at hq; subst hq; exact ⟨rfl, h⟩
    | ok _ => exact absurd hq (by simp [SameRes])
  | ok a => cases q' with
    | error _ => exact absurd hq (by simp [SameRes])
    | ok b =>
      refine ⟨rfl, h.1, by simp [addObj, h.2.1], ?_⟩
      intro i x y hx hy
      simp only [addObj] at hx hy
      rw [List.getElem?_append] at hx hy
      by_cases hi : i < s.objs.length
      · have hi' : i < t.objs.length := by rw [← h.2.1]; exact hi
        simp only [hi, hi', if_true] at hx hy
        exact h.2.2 i x y hx hy
      · have hi' : ¬ i < t.objs.length := by rw [← h.2.1]; exact hi
        simp only [hi, hi', if_false] at hx hy
        rw [← h.2.1] at hy
        cases hz : i - s.objs.length with
        | zero => rw [hz] at hx hy; simp at hx hy; subst hx hy; exact hq
        | succ n => rw [hz] at hx; simp at hx

theorem SameSt.get {s t : St} (h : SameSt s t) (k : Nat) :
    (s.objs[k]? = none ∧ t.objs[k]? = none) ∨
    ∃ a b, s.objs[k]? = some a ∧ t.objs[k]? = some b ∧ Same a b := by
  cases hs : s.objs[k]? with
  | none =>
    left; refine ⟨rfl, ?_⟩
    rw [List.getElem?_eq_none_iff] at hs ⊢
    rw [← h.2.1]; exact hs
  | some a =>
    right
    have hk : k < t.objs.length := by
      rw [← h.2.1]; exact (List.getElem?_eq_some_iff.1 hs).1
    exact ⟨a, t.objs[k], rfl, List.getElem?_eq_getElem hk, h.2.2 k _ _ hs (List.getElem?_eq_getElem hk)⟩

theorem SameAs.toSame {l : List Logic} {a b : LA} (h : SameAs l a b) : Same a b := ⟨l, h⟩

theorem exec_same (rx : Option Resolver) (s t : St) (c : Cmd) (h : SameSt s t) (hv : ValidCmd c)
    (hc : CmpOk s c) : (exec rx s c).1 = (exec rx t c).1 ∧ SameSt (exec rx s c).2 (exec rx t c).2 := by
  cases c with
  | new v r =>
    cases v with
    | obj k =>
      simp only [exec]
      rcases h.get k with ⟨h1, h2⟩ | ⟨a, b, h1, h2, l, hab⟩
      · simp only [h1, h2]; exact ⟨trivial, h⟩
      · simp only [h1, h2]; exact h.add (hab.new r hv)
    | str x => exact h.add (SameRes.refl fun a ha => new_rep _ r hv (by simp) a ha)
    | int x => exact h.add (SameRes.refl fun a ha => new_rep _ r hv (by simp) a ha)
    | iter x => exact h.add (SameRes.refl fun a ha => new_rep _ r hv (by simp) a ha)
  | fromUnsigned n r o => exact h.add (SameRes.refl fun a ha => fromUnsigned_rep n r o hv a ha)
  | fromSigned n r o => exact h.add (SameRes.refl fun a ha => fromSigned_rep n r o hv a ha)
  | fromBytes b r o => exact h.add (SameRes.refl fun a ha => fromBytes_rep b r o hv a ha)
  | read k r =>
    simp only [exec]
    rcases h.get k with ⟨h1, h2⟩ | ⟨a, b, h1, h2, l, hab⟩
    · simp only [h1, h2]; exact ⟨trivial, h⟩
    · simp only [h1, h2]
      rw [← h.1]
      obtain ⟨e1, e2, e3, -⟩ := hab.read rx s.rng r
      exact ⟨e1, h.set e3.toSame e2⟩
  | make k m =>
    simp only [exec]
    rcases h.get k with ⟨h1, h2⟩ | ⟨a, b, h1, h2, l, hab⟩
    · simp only [h1, h2]; exact ⟨trivial, h⟩
    · simp only [h1, h2]
      rw [← h.1]
      obtain ⟨e1, e2, e3⟩ := hab.make s.rng m (by intro r hr; subst hr; exact hv)
      exact (h.set e3.toSame e2).add e1
  | setItem k i v =>
    simp only [exec]
    rcases h.get k with ⟨h1, h2⟩ | ⟨a, b, h1, h2, l, hab⟩
    · simp only [h1, h2]; exact ⟨trivial, h⟩
    · simp only [h1, h2]
      obtain ⟨e1, e2⟩ := hab.setItem i v
      exact ⟨by rw [e1], h.set e2 h.1⟩
  | setSlice k sl v =>
    cases v with
    | obj j =>
      simp only [exec]
      rcases h.get k with ⟨h1, h2⟩ | ⟨a, b, h1, h2, l, hab⟩
      · simp only [h1, h2]; exact ⟨trivial, h⟩
      · rcases h.get j with ⟨g1, g2⟩ | ⟨x, y, g1, g2, hxy⟩
        · simp only [h1, h2, g1, g2]; exact ⟨trivial, h⟩
        · simp only [h1, h2, g1, g2]
          obtain ⟨e1, e2⟩ := hab.setSlice sl (if k = j then .self else .val (.obj x))
            (if k = j then .self else .val (.obj y)) (by split <;> simp only [SameVal]; exact hxy)
          exact ⟨by rw [e1], h.set e2 h.1⟩
    | str x =>
      simp only [exec, Src.val]
      rcases h.get k with ⟨h1, h2⟩ | ⟨a, b, h1, h2, l, hab⟩
      · simp only [h1, h2]; exact ⟨trivial, h⟩
      · simp only [h1, h2]
        obtain ⟨e1, e2⟩ := hab.setSlice sl (.val (.str x)) (.val (.str x)) ⟨rfl, by simp⟩
        exact ⟨by rw [e1], h.set e2 h.1⟩
    | int x =>
      simp only [exec, Src.val]
      rcases h.get k with ⟨h1, h2⟩ | ⟨a, b, h1, h2, l, hab⟩
      · simp only [h1, h2]; exact ⟨trivial, h⟩
      · simp only [h1, h2]
        obtain ⟨e1, e2⟩ := hab.setSlice sl (.val (.int x)) (.val (.int x)) ⟨rfl, by simp⟩
        exact ⟨by rw [e1], h.set e2 h.1⟩
    | iter x =>
      simp only [exec, Src.val]
      rcases h.get k with ⟨h1, h2⟩ | ⟨a, b, h1, h2, l, hab⟩
      · simp only [h1, h2]; exact ⟨trivial, h⟩
      · simp only [h1, h2]
        obtain ⟨e1, e2⟩ := hab.setSlice sl (.val (.iter x)) (.val (.iter x)) ⟨rfl, by simp⟩
        exact ⟨by rw [e1], h.set e2 h.1⟩
  | setRange k r =>
    simp only [exec]
    rcases h.get k with ⟨h1, h2⟩ | ⟨a, b, h1, h2, l, hab⟩
    · simp only [h1, h2]; exact ⟨trivial, h⟩
    · simp only [h1, h2, LA.setRange, hab.len]
      by_cases hl : r.len = b.len
      · rw [if_neg (by simpa using hl)]; rw [if_neg (by simpa using hl)]
        refine ⟨rfl, SameSt.set (k := k) (a := { a with range := r }) (b := { b with range := r }) h ⟨l, ?_, ?_, rfl, hab.2.2.2⟩ h.1⟩
        · have hla : l.length = r.len := by rw [hl, ← hab.len]; exact hab.1.len
          exact ⟨hla, hv, hab.1.arr, hab.1.str, hab.1.int, hab.1.some⟩
        · have hlb : l.length = r.len := by rw [hl]; exact hab.2.1.len
          exact ⟨hlb, hv, hab.2.1.arr, hab.2.1.str, hab.2.1.int, hab.2.1.some⟩
      · rw [if_pos (by simpa using hl)]; rw [if_pos (by simpa using hl)]
        exact ⟨rfl, h⟩
  | bitop f k j =>
    simp only [exec]
    rcases h.get k with ⟨h1, h2⟩ | ⟨a, b, h1, h2, l, hab⟩
    · simp only [h1, h2]; exact ⟨trivial, h⟩
    · rcases h.get j with ⟨g1, g2⟩ | ⟨x, y, g1, g2, m, hxy⟩
      · simp only [h1, h2, g1, g2]; exact ⟨trivial, h⟩
      · simp only [h1, h2, g1, g2, LA.bitop, hab.len, hxy.len]
        by_cases hlen : b.len = y.len
        · obtain ⟨a', b', ea, eb, h3, -⟩ := hab.getArray
          obtain ⟨x', y', ex, ey, h4, -⟩ := hxy.getArray
          simp only [hlen, ne_eq, not_true, if_false, ea, eb, ex, ey, mapM_binop]
          have hst := (h.set (k := k) h3.toSame h.1).set (k := j) h4.toSame h.1
          refine hst.add (SameRes.refl fun c hc => ?_)
          exact new_rep _ .none trivial (by simp) c hc
        · simp only [hlen, ne_eq, not_false_iff, if_true]
          exact ((h.set (k := k) hab.toSame h.1).set (k := j) hxy.toSame h.1).add rfl
  | eqObj k j =>
    simp only [exec]
    rcases h.get k with ⟨h1, h2⟩ | ⟨a, b, h1, h2, l, hab⟩
    · simp only [h1, h2]; exact ⟨trivial, h⟩
    · rcases h.get j with ⟨g1, g2⟩ | ⟨x, y, g1, g2, m, hxy⟩
      · simp only [h1, h2, g1, g2]; exact ⟨trivial, h⟩
      · simp only [h1, h2, g1, g2]
        have hp := hc a x l m h1 g1 (getArray_rep hab.1).1 (getArray_rep hxy.1).1
        obtain ⟨p1, p2, p3, p4, p5, p6, p7⟩ := eqObj_rep hab.1 hxy.1
        obtain ⟨q1, q2, q3, q4, q5, q6, q7⟩ := eqObj_rep hab.2.1 hxy.2.1
        rw [p1 (Or.inr (Or.inr hp)), q1 (Or.inr (Or.inr hp))]
        refine ⟨rfl, (h.set (k := k) ⟨l, p2, q2, ?_, ?_⟩ h.1).set (k := j) ⟨m, p5, q5, ?_, ?_⟩ h.1⟩
        · rw [p3, q3, hab.2.2.1]
        · rw [p4, q4, hab.2.2.2]
        · rw [p6, q6, hxy.2.2.1]
        · rw [p7, q7, hxy.2.2.2]

/-- C16, full claim: programs cannot tell two stores with the same content apart. -/
def C16_full : Prop :=
  ∀ (rx : Option Resolver) (s t : St) (cs : List Cmd), SameSt s t → (∀ c ∈ cs, ValidCmd c) →
    trace rx s cs = trace rx t cs

/-- C16: false of the code. `LogicArray("L")` and `LogicArray.from_unsigned(0, 1)` compare unequal,
until `int()` has been called on the first: then their cached integers are compared. -/
theorem C16_counterexample : ¬ C16_full := by
  intro h
  have hr : ∀ n : Option Int, (n = none ∨ n = some 0) → Rep ⟨none, n, some (chrs [L]), .mk3 0 .downto 0, false⟩ [L] := by
    rintro n (rfl | rfl)
    · exact rep_ofStr [L] _ (Range.valid_mk3 _ _ _) (by decide) false
    · exact ⟨by decide, Range.valid_mk3 _ _ _, by simp, by simp,
        by intro n hn; simp at hn; subst hn; decide, by simp⟩
  have hz : Rep ⟨none, some ((0 : Nat) : Int), none, .mk3 0 .downto 0, false⟩ (bitsBE 1 0) :=
    rep_ofNat (.mk3 0 .downto 0) (Range.valid_mk3 _ _ _) (by decide) 0 (by decide) false
  have := h none ⟨[⟨none, none, some (chrs [L]), .mk3 0 .downto 0, false⟩, ⟨none, some 0, none, .mk3 0 .downto 0, false⟩], fun _ => false⟩
    ⟨[⟨none, some 0, some (chrs [L]), .mk3 0 .downto 0, false⟩, ⟨none, some 0, none, .mk3 0 .downto 0, false⟩], fun _ => false⟩
    [.eqObj 0 1]
    (by
      refine ⟨rfl, rfl, ?_⟩
      intro k a b ha hb
      match k with
      | 0 =>
        simp at ha hb; subst ha hb
        exact ⟨[L], hr none (Or.inl rfl), hr _ (Or.inr rfl), rfl, rfl⟩
      | 1 =>
        simp at ha hb; subst ha hb
        exact ⟨_, hz, hz, rfl, rfl⟩
      | k + 2 => simp at ha)
    (by intro c hc; simp at hc; subst hc; trivial)
  simp only [trace, exec] at this
  revert this
  simp
  decide +kernel

/-- The counterexample is reachable through the API: the state after `int(a)` differs only in the
cache, and the comparison changes its answer. -/
theorem C16_counterexample_run :
    trace none ⟨[], fun _ => false⟩
      [.new (.str "L".toList) .none, .fromUnsigned 0 (.int 1) "error", .eqObj 0 1] =
      [.unit (.ok ()), .unit (.ok ()), .bool (.ok false)] ∧
    trace none ⟨[], fun _ => false⟩
      [.new (.str "L".toList) .none, .fromUnsigned 0 (.int 1) "error", .read 0 .unsigned, .eqObj 0 1] =
      [.unit (.ok ()), .unit (.ok ()), .int (.ok 0), .bool (.ok true)] := by
  constructor <;> rfl

/-- C16: all programs of any length over any number of objects; the only excluded runs compare two
arrays (with `==`) of which one contains `L`, `H` or `-`. -/
theorem C16_history_partial (rx : Option Resolver) (s t : St) (cs : List Cmd) (h : SameSt s t)
    (hv : ∀ c ∈ cs, ValidCmd c) (hr : RunOk rx s cs) : trace rx s cs = trace rx t cs := by
  induction cs generalizing s t with
  | nil => rfl
  | cons c cs ih =>
    obtain ⟨e1, e2⟩ := exec_same rx s t c h (hv c (by simp)) hr.1
    simp only [trace]
    rw [e1, ih _ _ e2 (fun d hd => hv d (by simp [hd])) hr.2]

/-- A store every object of which holds some elements. -/
def StOk (s : St) : Prop := SameSt s s

/-- C16: a reading method call leaves the content of its object unchanged, so (unless it consumed
random bits) whatever follows behaves as if it had not been made. -/
theorem C16_reads_invisible (rx : Option Resolver) (s : St) (k : Nat) (r : Read) (cs : List Cmd)
    (hs : StOk s) (hg : (exec rx s (.read k r)).2.rng = s.rng) (hv : ∀ c ∈ cs, ValidCmd c)
    (hr : RunOk rx s cs) :
    trace rx s (.read k r :: cs) = (exec rx s (.read k r)).1 :: trace rx s cs := by
  simp only [trace]
  congr 1
  refine (C16_history_partial rx s _ cs ?_ hv hr).symm
  simp only [exec] at hg ⊢
  rcases hs.get k with ⟨h1, -⟩ | ⟨a, b, h1, h2, l, hab⟩
  · simp only [h1] at hg ⊢; exact hs
  · rw [h1] at h2; simp at h2; subst h2
    simp only [h1] at hg ⊢
    obtain ⟨-, -, -, e4⟩ := hab.read rx s.rng r
    have := hs.set (k := k) e4.toSame hg.symm
    have hk := (List.getElem?_eq_some_iff.1 h1)
    obtain ⟨hlt, he⟩ := hk
    have e : s.objs.set k a = s.objs := by rw [← he]; exact List.set_getElem_self hlt
    rw [e] at this
    exact this

/-- C08 for `LogicArray.resolve`: a new array with the same range, every element resolved; the
original keeps its elements and range. -/
theorem C08_logicarray (a : LA) (l : List Logic) (h : Rep a l) (r : Resolver) (rng : Rng) :
    ∃ b l' , (a.resolve r rng).1 = .ok b ∧ Rep b l' ∧ b.range = a.range ∧ l'.length = l.length ∧
      (∀ (i : Nat) x y, l[i]? = some x → l'[i]? = some y → resolveOk r x y) ∧
      Rep (a.resolve r rng).2.1 l ∧ (a.resolve r rng).2.1.range = a.range := by
  obtain ⟨a', e, h2, h3, h4⟩ := getStr_eq h
  obtain ⟨l', e1, e2, e3⟩ := C08_array r rng l
  have hlen : l'.length = a.range.len := by rw [e2]; exact h.len
  refine ⟨_, l', ?_, rep_ofStr l' a.range h.valid hlen false, rfl, e2, e3, ?_, ?_⟩
  · simp only [LA.resolve, e, e1, LA.new, LA.normRange, normStr_chrs, chrs_literals, if_true, h3]
    simp [hlen]
  · simp only [LA.resolve, e]; exact h2
  · simp only [LA.resolve, e]; exact h3

example : Rep ⟨some [F1, X, H], none, none, .mk3 2 .downto 0, false⟩ [F1, X, H] :=
  rep_ofArr _ _ (Range.valid_mk3 _ _ _) (by decide) _

/-- C16: copies (`copy.copy` is `LogicArray(a)`, `copy.deepcopy`, `LogicArray(a, range)`) hold the
same elements; without a new range they keep the range, with one they take it iff the length fits. -/
theorem C16_copies (a : LA) (l : List Logic) (h : Rep a l) :
    (∃ b, LA.new (.obj a) .none = .ok b ∧ Rep b l ∧ b.range = a.range) ∧
    (∃ b, a.deepcopy = .ok b ∧ Rep b l ∧ b.range = a.range) ∧
    (∀ r : Range, r.Valid → r.len = l.length →
      ∃ b, LA.new (.obj a) (.range r) = .ok b ∧ Rep b l ∧ b.range = r) ∧
    (∀ r : Range, r.len ≠ l.length → LA.new (.obj a) (.range r) = .error .valueError) := by
  refine ⟨⟨_, rfl, ⟨h.len, h.valid, h.arr, h.str, h.int, h.some⟩, rfl⟩, ?_, ?_, ?_⟩
  · refine ⟨a, ?_, h, rfl⟩
    simp only [LA.deepcopy, Range.copy]
    rw [Range.fromRange_ok h.valid]
  · intro r hr hl
    refine ⟨⟨a.arr, a.int, a.str, r, false⟩, ?_, ⟨hl.symm, hr, h.arr, h.str, h.int, h.some⟩, rfl⟩
    simp only [LA.new, LA.normRange, LA.len, ← h.len, hl]
    simp
  · intro r hl
    simp only [LA.new, LA.normRange, LA.len, ← h.len]
    simp [hl]

/-! ## C19 -/

/-- C19, full claim for two arrays. -/
def C19_full : Prop :=
  ∀ (a b : LA) (l m : List Logic), Rep a l → Rep b m → (eqObj a b).1 = .ok (decide (l = m))

theorem C19_counterexample : ¬ C19_full := by
  intro h
  have := h ⟨none, some 0, some (chrs [L]), .mk3 0 .downto 0, false⟩ ⟨none, some 0, none, .mk3 0 .downto 0, false⟩
    [L] (bitsBE 1 0)
    ⟨by decide, Range.valid_mk3 _ _ _, by simp, by simp, by intro n hn; simp at hn; subst hn; decide, by simp⟩
    (rep_ofNat (.mk3 0 .downto 0) (Range.valid_mk3 _ _ _) (by decide) 0 (by decide) false)
  revert this
  decide +kernel

/-- C19: equality is structural (same length, same elements, ranges irrelevant) for arrays without
`L`, `H`, `-`, and for arbitrary arrays as long as one of the two has no cached integer. -/
theorem C19_eq_partial (a b : LA) (l m : List Logic) (ha : Rep a l) (hb : Rep b m)
    (h : (plain l ∧ plain m) ∨ a.int = none ∨ b.int = none) :
    (eqObj a b).1 = .ok (decide (l = m)) := by
  apply (eqObj_rep ha hb).1
  rcases h with h | h | h
  · exact Or.inr (Or.inr h)
  · exact Or.inl h
  · exact Or.inr (Or.inl h)

/-- C19: on such arrays `==` is reflexive, symmetric and transitive, whatever was called before. -/
theorem C19_equivalence_partial (a b c : LA) (l m n : List Logic) (ha : Rep a l) (hb : Rep b m) (hc : Rep c n)
    (pl : plain l) (pm : plain m) (pn : plain n) :
    (eqObj a a).1 = .ok true ∧
    (eqObj a b).1 = (eqObj b a).1 ∧
    ((eqObj a b).1 = .ok true → (eqObj b c).1 = .ok true → (eqObj a c).1 = .ok true) := by
  rw [C19_eq_partial a a l l ha ha (Or.inl ⟨pl, pl⟩), C19_eq_partial a b l m ha hb (Or.inl ⟨pl, pm⟩),
    C19_eq_partial b a m l hb ha (Or.inl ⟨pm, pl⟩), C19_eq_partial b c m n hb hc (Or.inl ⟨pm, pn⟩),
    C19_eq_partial a c l n ha hc (Or.inl ⟨pl, pn⟩)]
  refine ⟨by simp, ?_, ?_⟩
  · by_cases h : l = m
    · simp [h]
    · have : ¬ m = l := fun e => h e.symm
      simp [h, this]
  · simp only [Except.ok.injEq, decide_eq_true_eq]
    intro h1 h2; rw [h1, h2]

/-- C19: reflexivity holds for every array without exception. -/
theorem C19_refl (a : LA) (l : List Logic) (ha : Rep a l) : (eqObj a a).1 = .ok true := by
  unfold LA.eqObj
  simp only [ne_eq, not_true, if_false]
  cases hs : a.str with
  | some s => simp
  | none =>
    cases har : a.arr with
    | some x => simp
    | none =>
      rcases ha.some hs with ⟨n, hn, -⟩ | ⟨-, h⟩
      · rw [hn]; simp
      · exact absurd har h

/-- C19: comparison with a string is comparison of the printout with the upper-cased string (so
underscores, which the constructor strips, make it unequal). -/
theorem C19_str (a : LA) (l : List Logic) (ha : Rep a l) (s : PyStr) :
    (a.eqStr s).1 = .ok (decide (chrs l = s.map Char.toUpper)) := by
  obtain ⟨a', e, -⟩ := getStr_eq ha
  simp only [LA.eqStr, e]

/-- C19: comparison with a list of literals: equal iff every entry is a valid literal denoting the
element at that place. -/
theorem C19_list (a : LA) (l : List Logic) (ha : Rep a l) (m : List Logic.Lit) :
    (∀ m', LA.logics m = .ok m' → (a.eqList m).1 = .ok (decide (l = m'))) ∧
    (∀ e, LA.logics m = .error e → e = .valueError ∨ e = .typeError → (a.eqList m).1 = .ok false) := by
  unfold LA.eqList
  simp only [LA.new, LA.normRange]
  constructor
  · intro m' hm
    simp only [hm]
    exact C19_eq_partial a _ l m' ha (rep_ofArr m' _ (Range.valid_mk3 _ _ _) (defaultRange_len _).symm false)
      (Or.inr (Or.inr rfl))
  · intro e he h
    simp only [he]
    rcases h with rfl | rfl <;> rfl

example : Rep ⟨some [F1, X, Z], none, none, .mk3 2 .downto 0, false⟩ [F1, X, Z] ∧
    Rep ⟨none, none, some "1XZ".toList, .mk3 5 .to 7, false⟩ [F1, X, Z] ∧
    (eqObj ⟨some [F1, X, Z], none, none, .mk3 2 .downto 0, false⟩
      ⟨none, none, some "1XZ".toList, .mk3 5 .to 7, false⟩).1 = .ok true :=
  ⟨rep_ofArr _ _ (Range.valid_mk3 _ _ _) (by decide) _, rep_ofStr [F1, X, Z] _ (Range.valid_mk3 _ _ _) (by decide) _,
    by decide +kernel⟩

example : StOk ⟨[⟨some [F1, H], none, none, .mk3 1 .downto 0, false⟩], fun _ => false⟩ :=
  ⟨rfl, rfl, fun k a b ha hb => by
    match k with
    | 0 =>
      simp at ha hb; subst ha hb
      have := rep_ofArr [F1, H] (.mk3 1 .downto 0) (Range.valid_mk3 _ _ _) (by decide) false
      exact ⟨_, this, this, rfl, rfl⟩
    | k + 1 => simp at ha⟩

end Verif
