import Verif.Model.LogicArrayProg
import Verif.Props.LogicArrayIndex
import Verif.Props.Logic
/-!
# Two objects with the same elements, range and warning flag answer every call alike
-/
namespace Verif
open Spec Logic

/-- `a` and `b` hold the same elements with the same range; their caches may differ. -/
def SameAs (l : List Logic) (a b : LA) : Prop := Rep a l ∧ Rep b l ∧ a.range = b.range ∧ a.warn = b.warn

def Same (a b : LA) : Prop := ∃ l, SameAs l a b

theorem getArray_eq {a : LA} {l : List Logic} (h : Rep a l) :
    ∃ a', a.getArray = (.ok l, a') ∧ Rep a' l ∧ a'.range = a.range ∧ a'.warn = a.warn ∧ a'.arr = some l := by
  obtain ⟨h1, h2⟩ := getArray_rep h
  exact ⟨a.getArray.2, by rw [← h1], h2⟩

theorem getStr_eq {a : LA} {l : List Logic} (h : Rep a l) :
    ∃ a', a.getStr = (.ok (chrs l), a') ∧ Rep a' l ∧ a'.range = a.range ∧ a'.warn = a.warn := by
  obtain ⟨h1, h2, h3, h4, -⟩ := getStr_rep h
  exact ⟨a.getStr.2, by rw [← h1], h2, h3, h4⟩

theorem getInt_eq {a : LA} {l : List Logic} (rx : Option Resolver) (rng : LA.Rng) (h : Rep a l) :
    ∃ a', a.getInt rx rng = ((listInt rx rng l).1, a', (listInt rx rng l).2) ∧ Rep a' l ∧
      a'.range = a.range ∧ a'.warn = a.warn := by
  obtain ⟨h1, h2, h3, h4, h5⟩ := getInt_rep rx rng h
  exact ⟨(a.getInt rx rng).2.1, by rw [← h1, ← h2], h3, h4, h5⟩

theorem SameAs.getArray {l : List Logic} {a b : LA} (h : SameAs l a b) :
    ∃ a' b', a.getArray = (.ok l, a') ∧ b.getArray = (.ok l, b') ∧ SameAs l a' b' ∧ SameAs l a a' := by
  obtain ⟨ha, hb, hr, hw⟩ := h
  obtain ⟨a', h1, h2, h3, h4, -⟩ := getArray_eq ha
  obtain ⟨b', k1, k2, k3, k4, -⟩ := getArray_eq hb
  exact ⟨a', b', h1, k1, ⟨h2, k2, by rw [h3, k3, hr], by rw [h4, k4, hw]⟩, ha, h2, h3.symm, h4.symm⟩

theorem SameAs.getStr {l : List Logic} {a b : LA} (h : SameAs l a b) :
    ∃ a' b', a.getStr = (.ok (chrs l), a') ∧ b.getStr = (.ok (chrs l), b') ∧ SameAs l a' b' ∧ SameAs l a a' := by
  obtain ⟨ha, hb, hr, hw⟩ := h
  obtain ⟨a', h1, h2, h3, h4⟩ := getStr_eq ha
  obtain ⟨b', k1, k2, k3, k4⟩ := getStr_eq hb
  exact ⟨a', b', h1, k1, ⟨h2, k2, by rw [h3, k3, hr], by rw [h4, k4, hw]⟩, ha, h2, h3.symm, h4.symm⟩

theorem SameAs.len {l : List Logic} {a b : LA} (h : SameAs l a b) : a.len = b.len := by
  rw [h.1.range_len, h.2.1.range_len]

theorem SameAs.toUnsigned {l : List Logic} {a b : LA} (rx : Option Resolver) (rng : LA.Rng) (h : SameAs l a b) :
    ∃ q rng' a' b', a.toUnsigned rx rng = (q, a', rng') ∧ b.toUnsigned rx rng = (q, b', rng') ∧ SameAs l a' b' ∧ SameAs l a a' := by
  have hlen := h.len
  unfold LA.toUnsigned
  rw [← hlen]
  by_cases h0 : a.len = 0
  · rw [if_pos h0, if_pos h0]; exact ⟨_, _, _, _, rfl, rfl, h, h.1, h.1, rfl, rfl⟩
  · rw [if_neg h0, if_neg h0]
    obtain ⟨ha, hb, hr, hw⟩ := h
    obtain ⟨a', h1, h2, h3, h4⟩ := getInt_eq rx rng ha
    obtain ⟨b', k1, k2, k3, k4⟩ := getInt_eq rx rng hb
    exact ⟨_, _, a', b', h1, k1, ⟨h2, k2, by rw [h3, k3, hr], by rw [h4, k4, hw]⟩, ha, h2, h3.symm, h4.symm⟩

theorem SameAs.toSigned {l : List Logic} {a b : LA} (rx : Option Resolver) (rng : LA.Rng) (h : SameAs l a b) :
    ∃ q rng' a' b', a.toSigned rx rng = (q, a', rng') ∧ b.toSigned rx rng = (q, b', rng') ∧ SameAs l a' b' ∧ SameAs l a a' := by
  have hlen := h.len
  unfold LA.toSigned
  rw [← hlen]
  by_cases h0 : a.len = 0
  · rw [if_pos h0, if_pos h0]; exact ⟨_, _, _, _, rfl, rfl, h, h.1, h.1, rfl, rfl⟩
  · rw [if_neg h0, if_neg h0]
    obtain ⟨ha, hb, hr, hw⟩ := h
    obtain ⟨a', h1, h2, h3, h4⟩ := getInt_eq rx rng ha
    obtain ⟨b', k1, k2, k3, k4⟩ := getInt_eq rx rng hb
    rw [h1, k1]
    cases (listInt rx rng l).1 with
    | error e => exact ⟨_, _, a', b', rfl, rfl, ⟨h2, k2, by rw [h3, k3, hr], by rw [h4, k4, hw]⟩, ha, h2, h3.symm, h4.symm⟩
    | ok v => exact ⟨_, _, a', b', rfl, rfl, ⟨h2, k2, by rw [h3, k3, hr], by rw [h4, k4, hw]⟩, ha, h2, h3.symm, h4.symm⟩

/-- No `L`, `H` or `-`. -/
def plain (l : List Logic) : Prop := ∀ x ∈ l, x ≠ L ∧ x ≠ H ∧ x ≠ D

theorem plain_int {l m : List Logic} {n : Int} (hl : plain l) (hm : plain m) (hlen : l.length = m.length)
    (h : pyIntBase2 ((chrs l).map LA.lhTable) = .ok n) (k : Int)
    (h' : pyIntBase2 ((chrs m).map LA.lhTable) = .ok k) : n = k ↔ l = m := by
  constructor
  · rintro rfl
    have key : ∀ {l : List Logic}, plain l → pyIntBase2 ((chrs l).map LA.lhTable) = .ok n →
        binary l ∧ ∃ v : Nat, (v : Int) = n ∧ unsigned l = some v := by
      intro l hl h
      have hne : l ≠ [] := by rintro rfl; simp [chrs, pyIntBase2, parseBinNat] at h
      have hd : l.head? ≠ some D := by
        cases l with
        | nil => simp
        | cons x xs => simpa using (hl x (by simp)).2.2
      rw [pyInt_chrs l hne hd] at h
      cases hu : unsigned l with
      | none => simp [hu] at h
      | some v =>
        simp [hu] at h
        refine ⟨?_, v, h, rfl⟩
        have hr := (unsigned_isSome l).1 (by simp [hu])
        intro x hx
        have h1 := hr x hx
        obtain ⟨h2, h3, h4⟩ := hl x hx
        cases x <;> simp [boolVal] at h1 h2 h3 h4 ⊢
    obtain ⟨b1, v, v1, v2⟩ := key hl h
    obtain ⟨b2, w, w1, w2⟩ := key hm h'
    have : v = w := by omega
    subst this
    rw [eq_bitsBE b1 v2, eq_bitsBE b2 w2, hlen]
  · rintro rfl
    rw [h] at h'
    simpa using h'

/-- Comparison of two arrays: the operands keep their content, and the answer is structural unless
two cached integers of arrays with `L`, `H` or `-` are compared. -/
theorem eqObj_rep {a b : LA} {l m : List Logic} (ha : Rep a l) (hb : Rep b m) :
    (a.int = none ∨ b.int = none ∨ (plain l ∧ plain m) → (LA.eqObj a b).1 = .ok (decide (l = m))) ∧
    Rep (LA.eqObj a b).2.1 l ∧ (LA.eqObj a b).2.1.range = a.range ∧ (LA.eqObj a b).2.1.warn = a.warn ∧
    Rep (LA.eqObj a b).2.2 m ∧ (LA.eqObj a b).2.2.range = b.range ∧ (LA.eqObj a b).2.2.warn = b.warn := by
  have hl1 := ha.range_len
  have hl2 := hb.range_len
  unfold LA.eqObj
  by_cases hlen : a.len = b.len
  · rw [if_neg (by simpa using hlen)]
    obtain ⟨sa, es1, hs1, hs2, hs3⟩ := getStr_eq ha
    obtain ⟨sb, es2, ks1, ks2, ks3⟩ := getStr_eq hb
    obtain ⟨xa, ex1, hx1, hx2, hx3, -⟩ := getArray_eq ha
    obtain ⟨xb, ex2, kx1, kx2, kx3, -⟩ := getArray_eq hb
    have hdec : (decide (chrs l = chrs m)) = decide (l = m) := by
      by_cases hh : l = m
      · simp [hh]
      · have : ¬ chrs l = chrs m := fun h => hh (chrs_injective h)
        simp [hh, this]
    have pa : ∀ x, a.arr = some x → x = l := ha.arr
    have pb : ∀ x, b.arr = some x → x = m := hb.arr
    have qa : ∀ x, a.str = some x → x = chrs l := ha.str
    have qb : ∀ x, b.str = some x → x = chrs m := hb.str
    have ra := ha.int
    have rb := hb.int
    have oa := ha.some
    have ob := hb.some
    have hll : l.length = m.length := by rw [← hl1, ← hl2, hlen]
    have hint : ∀ n k, a.int = some n → b.int = some k → (plain l ∧ plain m) → decide (n = k) = decide (l = m) := by
      intro n k h1 h2 h3
      have := plain_int h3.1 h3.2 hll (ra n h1) k (rb k h2)
      by_cases h : l = m <;> simp [h, this]
    cases has : a.str with
    | some s =>
      have := qa s has; subst this
      cases hbs : b.str with
      | some t =>
        have := qb t hbs; subst this
        exact ⟨fun _ => by simp only [hdec], ha, rfl, rfl, hb, rfl, rfl⟩
      | none =>
        cases haa : a.arr with
        | some x =>
          have := pa x haa; subst this
          cases hba : b.arr with
          | some y =>
            have := pb y hba; subst this
            exact ⟨fun _ => rfl, ha, rfl, rfl, hb, rfl, rfl⟩
          | none =>
            cases hai : a.int with
            | none => simp only [es2, hdec]; exact ⟨fun _ => trivial, ha, trivial, trivial, ks1, ks2, ks3⟩
            | some n =>
              cases hbi : b.int with
              | none => simp only [es2, hdec]; exact ⟨fun _ => trivial, ha, trivial, trivial, ks1, ks2, ks3⟩
              | some k =>
                simp only [reduceCtorEq, false_or]
                exact ⟨fun h => by rw [hint n k hai hbi h], ha, trivial, trivial, hb, trivial, trivial⟩
        | none =>
          cases hai : a.int with
          | none => simp only [es2, hdec]; exact ⟨fun _ => trivial, ha, trivial, trivial, ks1, ks2, ks3⟩
          | some n =>
            cases hbi : b.int with
            | none => simp only [es2, hdec]; exact ⟨fun _ => trivial, ha, trivial, trivial, ks1, ks2, ks3⟩
            | some k =>
              simp only [reduceCtorEq, false_or]
              exact ⟨fun h => by rw [hint n k hai hbi h], ha, trivial, trivial, hb, trivial, trivial⟩
    | none =>
      cases hbs : b.str with
      | some t =>
        have := qb t hbs; subst this
        cases haa : a.arr with
        | some x =>
          have := pa x haa; subst this
          cases hba : b.arr with
          | some y =>
            have := pb y hba; subst this
            exact ⟨fun _ => rfl, ha, rfl, rfl, hb, rfl, rfl⟩
          | none =>
            cases hai : a.int with
            | none => simp only [es1, hdec]; exact ⟨fun _ => trivial, hs1, hs2, hs3, hb, trivial, trivial⟩
            | some n =>
              cases hbi : b.int with
              | none => simp only [es1, hdec]; exact ⟨fun _ => trivial, hs1, hs2, hs3, hb, trivial, trivial⟩
              | some k =>
                simp only [reduceCtorEq, false_or]
                exact ⟨fun h => by rw [hint n k hai hbi h], ha, trivial, trivial, hb, trivial, trivial⟩
        | none =>
          cases hai : a.int with
          | none => simp only [es1, hdec]; exact ⟨fun _ => trivial, hs1, hs2, hs3, hb, trivial, trivial⟩
          | some n =>
            cases hbi : b.int with
            | none => simp only [es1, hdec]; exact ⟨fun _ => trivial, hs1, hs2, hs3, hb, trivial, trivial⟩
            | some k =>
              simp only [reduceCtorEq, false_or]
              exact ⟨fun h => by rw [hint n k hai hbi h], ha, trivial, trivial, hb, trivial, trivial⟩
      | none =>
        cases haa : a.arr with
        | some x =>
          have := pa x haa; subst this
          cases hba : b.arr with
          | some y =>
            have := pb y hba; subst this
            exact ⟨fun _ => rfl, ha, rfl, rfl, hb, rfl, rfl⟩
          | none =>
            cases hai : a.int with
            | none => simp only [ex2]; exact ⟨fun _ => trivial, ha, trivial, trivial, kx1, kx2, kx3⟩
            | some n =>
              cases hbi : b.int with
              | none => simp only [ex2]; exact ⟨fun _ => trivial, ha, trivial, trivial, kx1, kx2, kx3⟩
              | some k =>
                simp only [reduceCtorEq, false_or]
                exact ⟨fun h => by rw [hint n k hai hbi h], ha, trivial, trivial, hb, trivial, trivial⟩
        | none =>
          have hba : b.int = none → b.arr = some m := by
            intro h
            rcases ob hbs with ⟨k, h1, _⟩ | ⟨_, h2⟩
            · rw [h] at h1; simp at h1
            · cases hba : b.arr with
              | none => exact absurd hba h2
              | some y => rw [pb y hba]
          have hai' : ∃ n, a.int = some n := by
            rcases oa has with ⟨n, h1, _⟩ | ⟨_, h2⟩
            · exact ⟨n, h1⟩
            · exact absurd haa h2
          obtain ⟨n, hai⟩ := hai'
          rw [hai]
          cases hbi : b.int with
          | none =>
            rw [hba hbi]
            simp only [ex1, Option.some.injEq]
            exact ⟨fun _ => trivial, hx1, hx2, hx3, hb, trivial, trivial⟩
          | some k =>
            simp only [reduceCtorEq, false_or]
            exact ⟨fun h => by rw [hint n k hai hbi h], ha, trivial, trivial, hb, trivial, trivial⟩
  · rw [if_pos (by simpa using hlen)]
    have : ¬ l = m := by rintro rfl; exact hlen (by rw [hl1, hl2])
    simp only [this, decide_false]
    exact ⟨fun _ => trivial, ha, trivial, trivial, hb, trivial, trivial⟩

/-- `format` with a given spec is `str(a)`, an error, or a function of `len(a)` and `int(a)`. -/
theorem format_shape (s : PyStr) :
    (∀ (rx : Option Resolver) (rng : LA.Rng) (a : LA), a.format rx rng s =
      (match a.getStr with | (r, a) => (r, a, rng))) ∨
    (∀ (rx : Option Resolver) (rng : LA.Rng) (a : LA), a.format rx rng s = (.error .valueError, a, rng)) ∨
    (∃ g : Nat → Int → PyM PyStr, ∀ (rx : Option Resolver) (rng : LA.Rng) (a : LA), a.format rx rng s =
      (match a.toUnsigned rx rng with
        | (.error e, a', rng) => (.error e, a', rng)
        | (.ok v, a', rng) => (g a.len v, a', rng))) := by
  have fin : ∀ (P : Nat → Int → PyM PyStr) (pre : PyStr) (q : PyM Int × LA × LA.Rng) (n : Nat),
      (match q with
        | (.error e, a, rng) => (.error e, a, rng)
        | (.ok v, a, rng) => match P n v with
          | .ok s => (.ok (pre ++ s), a, rng)
          | .error e => (.error e, a, rng) : PyM PyStr × LA × LA.Rng) =
      (match q with
        | (.error e, a', rng) => (.error e, a', rng)
        | (.ok v, a', rng) => ((P n v).map (pre ++ ·), a', rng)) := by
    intro P pre q n
    obtain ⟨x, a, rng⟩ := q
    cases x with
    | error e => rfl
    | ok v => simp only; cases P n v <;> rfl
  by_cases h0 : s = []
  · left; intro rx rng a; unfold LA.format; rw [if_pos h0]
  · right
    unfold LA.format
    simp only [h0, if_false]
    generalize LA.fmtAlt s = q
    obtain ⟨alt, t⟩ := q
    simp only
    generalize LA.fmtSep t = q2
    obtain ⟨sep, u⟩ := q2
    simp only
    by_cases h1 : u = ['b']
    · right
      refine ⟨fun n v => (pyFormatInt alt (n + (if sep.isSome = true then (n - 1) / 4 else 0) + (if alt = true then 2 else 0)) sep .b v).map ([] ++ ·), fun rx rng a => ?_⟩
      rw [if_pos h1]
      exact fin (fun n v => pyFormatInt alt (n + (if sep.isSome = true then (n - 1) / 4 else 0) + (if alt = true then 2 else 0)) sep .b v) [] _ a.len
    by_cases h2 : u = ['x']
    · right
      refine ⟨fun n v => (pyFormatInt alt ((n + 3) / 4 + (if sep.isSome = true then ((n + 3) / 4 - 1) / 4 else 0) + (if alt = true then 2 else 0)) sep .x v).map ([] ++ ·), fun rx rng a => ?_⟩
      rw [if_neg h1, if_pos h2]
      exact fin (fun n v => pyFormatInt alt ((n + 3) / 4 + (if sep.isSome = true then ((n + 3) / 4 - 1) / 4 else 0) + (if alt = true then 2 else 0)) sep .x v) [] _ a.len
    by_cases h3 : u = ['X']
    · right
      refine ⟨fun n v => (pyFormatInt alt ((n + 3) / 4 + (if sep.isSome = true then ((n + 3) / 4 - 1) / 4 else 0) + (if alt = true then 2 else 0)) sep .X v).map ([] ++ ·), fun rx rng a => ?_⟩
      rw [if_neg h1, if_neg h2, if_pos h3]
      exact fin (fun n v => pyFormatInt alt ((n + 3) / 4 + (if sep.isSome = true then ((n + 3) / 4 - 1) / 4 else 0) + (if alt = true then 2 else 0)) sep .X v) [] _ a.len
    by_cases h4 : u = ['d']
    · right
      refine ⟨fun n v => (pyFormatInt false ((n + 9) / 10 + (if sep.isSome = true then ((n + 9) / 10 - 1) / 3 else 0) + (if alt = true then 2 else 0)) sep .d v).map ((if alt = true then "0d".toList else []) ++ ·), fun rx rng a => ?_⟩
      rw [if_neg h1, if_neg h2, if_neg h3, if_pos h4]
      exact fin (fun n v => pyFormatInt false ((n + 9) / 10 + (if sep.isSome = true then ((n + 9) / 10 - 1) / 3 else 0) + (if alt = true then 2 else 0)) sep .d v) (if alt = true then "0d".toList else []) _ a.len
    by_cases h5 : u = ['o']
    · right
      refine ⟨fun n v => (pyFormatInt alt ((n + 2) / 3 + (if alt = true then 2 else 0) + (if sep.isSome = true then ((n + 2) / 3 + (if alt = true then 2 else 0) - 1) / 4 else 0)) sep .o v).map ([] ++ ·), fun rx rng a => ?_⟩
      rw [if_neg h1, if_neg h2, if_neg h3, if_neg h4, if_pos h5]
      exact fin (fun n v => pyFormatInt alt ((n + 2) / 3 + (if alt = true then 2 else 0) + (if sep.isSome = true then ((n + 2) / 3 + (if alt = true then 2 else 0) - 1) / 4 else 0)) sep .o v) [] _ a.len
    left; intro rx rng a
    rw [if_neg h1, if_neg h2, if_neg h3, if_neg h4, if_neg h5]

/-- Every reading method: same output, same random bits consumed, elements unchanged. -/
theorem SameAs.read {l : List Logic} {a b : LA} (rx : Option Resolver) (rng : LA.Rng) (r : LA.Read)
    (h : SameAs l a b) :
    (a.read rx rng r).1 = (b.read rx rng r).1 ∧ (a.read rx rng r).2.2 = (b.read rx rng r).2.2 ∧
      SameAs l (a.read rx rng r).2.1 (b.read rx rng r).2.1 ∧ SameAs l a (a.read rx rng r).2.1 := by
  have hself : SameAs l a b ∧ SameAs l a a := ⟨h, h.1, h.1, rfl, rfl⟩
  obtain ⟨sa, sb, es1, es2, hs⟩ := h.getStr
  obtain ⟨xa, xb, ex1, ex2, hx⟩ := h.getArray
  have hlen := h.len
  obtain ⟨uq, ur, ua, ub, eu1, eu2, hu⟩ := h.toUnsigned rx rng
  obtain ⟨tq, tr, ta, tb, et1, et2, ht⟩ := h.toSigned rx rng
  obtain ⟨nq, nr, na, nb, en1, en2, hn⟩ := h.toUnsigned none rng
  have hr := h.2.2.1
  cases r with
  | str => simp only [LA.read, es1, es2]; exact ⟨trivial, trivial, hs⟩
  | unsigned => simp only [LA.read, eu1, eu2]; exact ⟨trivial, trivial, hu⟩
  | signed => simp only [LA.read, et1, et2]; exact ⟨trivial, trivial, ht⟩
  | bytes o =>
    simp only [LA.read, LA.toBytes, eu1, eu2, hlen]
    cases uq <;> exact ⟨rfl, rfl, hu⟩
  | bool =>
    simp only [LA.read, LA.toBool, hlen]
    by_cases h0 : b.len = 0
    · simp only [h0, if_true]; exact ⟨trivial, trivial, hself⟩
    · simp only [h0, if_false]
      cases rx with
      | none => simp only [en1, en2]; cases nq <;> exact ⟨rfl, rfl, hn⟩
      | some r => simp only [ex1, ex2]; exact ⟨trivial, trivial, hx⟩
  | resolvable => simp only [LA.read, LA.isResolvable, ex1, ex2]; exact ⟨trivial, trivial, hx⟩
  | list => simp only [LA.read, LA.iter, ex1, ex2]; exact ⟨trivial, trivial, hx⟩
  | revlist => simp only [LA.read, LA.reversed, ex1, ex2]; exact ⟨trivial, trivial, hx⟩
  | len => simp only [LA.read, hlen]; exact ⟨trivial, trivial, hself⟩
  | range => simp only [LA.read, hr]; exact ⟨trivial, trivial, hself⟩
  | contains x => simp only [LA.read, LA.contains, ex1, ex2]; exact ⟨trivial, trivial, hx⟩
  | item i =>
    obtain ⟨a1, a2, a3, a4⟩ := la_getItem_refines h.1 i
    obtain ⟨b1, b2, b3, b4⟩ := la_getItem_refines h.2.1 i
    have : asArr a l = asArr b l := by unfold asArr; rw [h.2.2.1, h.2.2.2]
    simp only [LA.read, a1, b1, this]
    exact ⟨trivial, trivial, ⟨a2, b2, by rw [a3, b3, h.2.2.1], by rw [a4, b4, h.2.2.2]⟩, h.1, a2, a3.symm, a4.symm⟩
  | eqInt n =>
    simp only [LA.read, LA.eqInt, hlen]
    by_cases h0 : b.len = 0
    · simp only [h0, if_true]; exact ⟨trivial, trivial, hself⟩
    · simp only [h0, if_false]
      by_cases hneg : n < 0
      · simp only [hneg, if_true, et1, et2]
        cases tq with
        | ok v => exact ⟨rfl, rfl, ht⟩
        | error e => cases e <;> simp only [true_and] <;> exact ht
      · simp only [hneg, if_false, eu1, eu2]
        cases uq with
        | ok v => exact ⟨rfl, rfl, hu⟩
        | error e => cases e <;> simp only [true_and] <;> exact hu
  | eqStr s => simp only [LA.read, LA.eqStr, es1, es2]; exact ⟨trivial, trivial, hs⟩
  | eqList m =>
    simp only [LA.read, LA.eqList]
    cases hn : LA.new (.iter m) .none with
    | error e => cases e <;> exact ⟨rfl, trivial, hself⟩
    | ok c =>
      have hc : c.str = none ∧ c.int = none ∧ ∃ m', c.arr = some m' ∧ c.range = LA.defaultRange m'.length := by
        simp only [LA.new, LA.normRange] at hn
        cases hl : LA.logics m with
        | error e => simp [hl] at hn
        | ok m' => simp [hl] at hn; subst hn; exact ⟨rfl, rfl, m', rfl, rfl⟩
      obtain ⟨c1, c2, m', c3, c4⟩ := hc
      have hrep : Rep c m' := ⟨by rw [c4, defaultRange_len], by rw [c4]; exact Range.valid_mk3 _ _ _,
        by simp [c3], by simp [c1], by simp [c2], fun _ => Or.inr ⟨c2, by simp [c3]⟩⟩
      obtain ⟨a1, a2, a3, a4, -⟩ := eqObj_rep h.1 hrep
      obtain ⟨b1, b2, b3, b4, -⟩ := eqObj_rep h.2.1 hrep
      have a1 := a1 (Or.inr (Or.inl c2))
      have b1 := b1 (Or.inr (Or.inl c2))
      simp only [a1, b1]
      exact ⟨trivial, trivial, ⟨a2, b2, by rw [a3, b3, h.2.2.1], by rw [a4, b4, h.2.2.2]⟩, h.1, a2, a3.symm, a4.symm⟩
  | format s =>
    simp only [LA.read]
    rcases format_shape s with hf | hf | ⟨g, hf⟩
    · simp only [hf, es1, es2]; exact ⟨trivial, trivial, hs⟩
    · simp only [hf]; exact ⟨trivial, trivial, hself⟩
    · simp only [hf, eu1, eu2, hlen]
      cases uq <;> exact ⟨rfl, rfl, hu⟩

/-- Results of two calls: the same error, or two objects with the same content. -/
def SameRes : PyM LA → PyM LA → Prop
  | .ok a, .ok b => Same a b
  | .error e, .error e' => e = e'
  | _, _ => False

def RangeArg.Valid : RangeArg → Prop
  | .range r => r.Valid
  | _ => True

theorem SameRes.refl {q : PyM LA} (h : ∀ a, q = .ok a → ∃ l, Rep a l) : SameRes q q := by
  cases q with
  | error e => rfl
  | ok a => obtain ⟨l, hl⟩ := h a rfl; exact ⟨l, hl, hl, rfl, rfl⟩

theorem SameAs.new {l : List Logic} {a b : LA} (h : SameAs l a b) (r : RangeArg) (hr : RangeArg.Valid r) :
    SameRes (LA.new (.obj a) r) (LA.new (.obj b) r) := by
  have hlen := h.len
  obtain ⟨ha, hb, hrr, hw⟩ := h
  have main : ∀ r : Range, r.Valid →
      SameRes (if r.len ≠ a.len then .error .valueError else .ok ⟨a.arr, a.int, a.str, r, false⟩)
        (if r.len ≠ b.len then .error .valueError else .ok ⟨b.arr, b.int, b.str, r, false⟩) := by
    intro r hv
    rw [← hlen]
    by_cases he : r.len = a.len
    · rw [if_neg (by simpa using he), if_neg (by simpa using he)]
      exact ⟨l, ⟨by rw [he]; exact ha.len, hv, ha.arr, ha.str, ha.int, ha.some⟩,
        ⟨by rw [he, hlen]; exact hb.len, hv, hb.arr, hb.str, hb.int, hb.some⟩, rfl, rfl⟩
    · rw [if_pos (by simpa using he), if_pos (by simpa using he)]; rfl
  cases r with
  | none =>
    simp only [LA.new, LA.normRange]
    exact ⟨l, ⟨ha.len, ha.valid, ha.arr, ha.str, ha.int, ha.some⟩,
        ⟨hb.len, hb.valid, hb.arr, hb.str, hb.int, hb.some⟩, hrr, rfl⟩
  | int n =>
    simp only [LA.new, LA.normRange]
    exact main _ (Range.valid_mk3 _ _ _)
  | range r => exact main r hr
  | other => simp only [LA.new, LA.normRange]; rfl

theorem Rep.deepcopy {a : LA} {l : List Logic} (h : Rep a l) :
    ∃ r, a.range.copy = .ok r ∧ r = a.range := ⟨_, Range.fromRange_ok h.valid, rfl⟩

theorem SameAs.make {l : List Logic} {a b : LA} (rng : LA.Rng) (m : LA.Make) (h : SameAs l a b)
    (hm : ∀ r, m = .new r → RangeArg.Valid r) :
    SameRes (a.make rng m).1 (b.make rng m).1 ∧ (a.make rng m).2.2 = (b.make rng m).2.2 ∧
      SameAs l (a.make rng m).2.1 (b.make rng m).2.1 := by
  obtain ⟨sa, sb, es1, es2, hs, -⟩ := h.getStr
  obtain ⟨xa, xb, ex1, ex2, hx, -⟩ := h.getArray
  cases m with
  | slice s =>
    obtain ⟨a1, a2, a3, a4, a5⟩ := la_getSlice_refines h.1 s
    obtain ⟨b1, b2, b3, b4, b5⟩ := la_getSlice_refines h.2.1 s
    have hab : asArr a l = asArr b l := by unfold asArr; rw [h.2.2.1, h.2.2.2]
    rw [hab] at a1 a2
    simp only [LA.make]
    refine ⟨?_, trivial, a3, b3, by rw [a4, b4, h.2.2.1], by rw [a5, b5, h.2.2.2]⟩
    cases hq : (asArr b l).getSlice s with
    | error e => rw [a2 e hq, b2 e hq]; rfl
    | ok c =>
      obtain ⟨c1, h1, h2, h3, h4⟩ := a1 c hq
      obtain ⟨c2, k1, k2, k3, k4⟩ := b1 c hq
      rw [h1, k1]
      exact ⟨c.value, h2, k2, by rw [h3, k3], by rw [h4, k4]⟩
  | invert =>
    simp only [LA.make, LA.invert, ex1, ex2]
    have hz : l.map (fun v => (⟨.logic, v.not⟩ : Obj)) = (l.map Logic.not).map fun v => ⟨.logic, v⟩ := by
      rw [List.map_map]; rfl
    simp only [mapM_inv, hz, new_iter_obj]
    refine ⟨?_, trivial, hx⟩
    have := rep_ofArr (l.map Logic.not) _ (Range.valid_mk3 _ _ _) (defaultRange_len _).symm false
    exact ⟨_, this, this, rfl, rfl⟩
  | resolve r =>
    simp only [LA.make, LA.resolve, es1, es2, hs.2.2.1]
    refine ⟨?_, trivial, hs⟩
    apply SameRes.refl
    intro c hc
    obtain ⟨l', h1, h2, -⟩ := C08_array r rng l
    rw [h1] at hc
    simp only [LA.new, LA.normRange, normStr_chrs, chrs_literals, if_true, chrs_length] at hc
    split at hc
    · simp at hc
    · rename_i hl
      simp at hl hc
      subst hc
      exact ⟨l', rep_ofStr l' _ hs.2.1.valid hl false⟩
  | deepcopy =>
    simp only [LA.make, LA.deepcopy]
    obtain ⟨r1, e1, f1⟩ := Rep.deepcopy h.1
    obtain ⟨r2, e2, f2⟩ := Rep.deepcopy h.2.1
    subst f1 f2
    simp only [e1, e2]
    exact ⟨⟨l, h⟩, trivial, h⟩
  | new r => exact ⟨h.new r (hm r rfl), rfl, h⟩

end Verif

namespace Verif
open Spec Logic

/-! ## Objects made from literals -/

theorem new_rep (v : LAVal) (r : RangeArg) (hr : RangeArg.Valid r) (hv : ∀ o, v ≠ .obj o) (a : LA)
    (h : LA.new v r = .ok a) : ∃ l, Rep a l := by
  have main : ∀ rr : Range, rr.Valid → LA.new v (.range rr) = .ok a → ∃ l, Rep a l := by
    intro rr hrr h
    cases v with
    | obj o => exact absurd rfl (hv o)
    | str s =>
      simp only [LA.new, LA.normRange] at h
      split at h
      · rename_i hall
        split at h
        · simp at h
        · rename_i hl
          simp at h hl
          obtain ⟨m, hm⟩ := exists_chrs _ hall
          rw [hm] at h hl
          subst h
          simp at hl
          exact ⟨m, rep_ofStr m _ hrr hl false⟩
      · simp at h
    | int i =>
      have hb := C12_int_ctor i rr hrr
      by_cases hok : 0 < rr.len ∧ -(2 ^ (rr.len - 1)) ≤ i ∧ i < 2 ^ rr.len
      · obtain ⟨b, b1, b2, b3, -⟩ := hb.1 hok.1 hok.2.1 hok.2.2
        rw [b1] at h
        simp at h; subst h
        exact ⟨_, b3⟩
      · rw [hb.2 hok] at h; simp at h
    | iter m =>
      simp only [LA.new, LA.normRange] at h
      cases hls : LA.logics m with
      | error e => simp [hls] at h
      | ok m' =>
        simp only [hls] at h
        split at h
        · simp at h
        · rename_i hl
          simp at h hl
          subst h
          exact ⟨m', rep_ofArr m' _ hrr hl false⟩
  cases r with
  | range rr => exact main rr hr h
  | int n => exact main _ (Range.valid_mk3 (n - 1) .downto 0) h
  | other => simp [LA.new, LA.normRange] at h
  | none =>
    cases v with
    | obj o => exact absurd rfl (hv o)
    | str s =>
      simp only [LA.new, LA.normRange] at h
      split at h
      · rename_i hall
        simp at h
        obtain ⟨m, hm⟩ := exists_chrs _ hall
        rw [hm] at h
        subst h
        exact ⟨m, rep_ofStr m _ (Range.valid_mk3 _ _ _) (by rw [chrs_length]; exact (defaultRange_len _).symm) false⟩
      · simp at h
    | int i => simp [LA.new, LA.normRange] at h
    | iter m =>
      simp only [LA.new, LA.normRange] at h
      cases hls : LA.logics m with
      | error e => simp [hls] at h
      | ok m' =>
        simp [hls] at h
        subst h
        exact ⟨m', rep_ofArr m' _ (Range.valid_mk3 _ _ _) (defaultRange_len _).symm false⟩

theorem reqRange_valid {r : RangeArg} {rr : Range} (hr : RangeArg.Valid r) (h : LA.reqRange r = .ok rr) :
    rr.Valid := by
  cases r <;> simp [LA.reqRange] at h
  · subst h; exact Range.valid_mk3 _ _ _
  · subst h; exact hr

theorem rep_mod (rr : Range) (hv : rr.Valid) (hl : ¬ rr.len = 0) (n : Int) (h0 : 0 ≤ n) (h1 : n < 2 ^ rr.len) :
    ∃ l, Rep ⟨none, some n, none, rr, false⟩ l := by
  obtain ⟨k, rfl⟩ := Int.eq_ofNat_of_zero_le h0
  exact ⟨_, rep_ofNat rr hv (by omega) k (by have := pow_cast rr.len; omega) false⟩

theorem fromUnsigned_rep (n : Int) (r : RangeArg) (o : String) (hr : RangeArg.Valid r) (a : LA)
    (h : LA.fromUnsigned n r o = .ok a) : ∃ l, Rep a l := by
  unfold LA.fromUnsigned at h
  cases hq : LA.reqRange r with
  | error e => simp [hq] at h
  | ok rr =>
    have hv := reqRange_valid hr hq
    have hp : (0 : Int) < 2 ^ rr.len := Int.pow_pos (by omega)
    simp only [hq] at h
    split at h
    · simp at h
    · rename_i h0
      split at h
      · simp at h
      · rename_i hl
        split at h
        · simp at h; subst h
          exact rep_mod rr hv hl _ (Int.emod_nonneg _ (by omega)) (Int.emod_lt_of_pos _ hp)
        · split at h
          · split at h
            · simp at h
            · simp at h; subst h
              exact rep_mod rr hv hl _ (by omega) (by omega)
          · simp at h

theorem fromSigned_rep (n : Int) (r : RangeArg) (o : String) (hr : RangeArg.Valid r) (a : LA)
    (h : LA.fromSigned n r o = .ok a) : ∃ l, Rep a l := by
  unfold LA.fromSigned at h
  cases hq : LA.reqRange r with
  | error e => simp [hq] at h
  | ok rr =>
    have hv := reqRange_valid hr hq
    have hp : (0 : Int) < 2 ^ rr.len := Int.pow_pos (by omega)
    simp only [hq] at h
    split at h
    · simp at h
    · rename_i hl
      split at h
      · simp at h; subst h
        exact rep_mod rr hv hl _ (Int.emod_nonneg _ (by omega)) (Int.emod_lt_of_pos _ hp)
      · split at h
        · split at h
          · simp at h
          · simp at h; subst h
            have e : (2 : Int) * 2 ^ (rr.len - 1) = 2 ^ rr.len := by
              obtain ⟨k, hk⟩ : ∃ k, rr.len = k + 1 := ⟨rr.len - 1, by omega⟩
              rw [hk, Int.pow_succ]; simp; omega
            rw [e]
            exact rep_mod rr hv hl _ (Int.emod_nonneg _ (by omega)) (Int.emod_lt_of_pos _ hp)
        · simp at h

theorem fromBytes_rep (b : List Byte) (r : Option RangeArg) (o : ByteOrder)
    (hr : ∀ x, r = some x → RangeArg.Valid x) (a : LA)
    (h : LA.fromBytes b r o = .ok a) : ∃ l, Rep a l := by
  unfold LA.fromBytes at h
  cases r with
  | none => exact new_rep _ (.range _) (Range.valid_mk3 _ _ _) (by simp) a h
  | some ra =>
    simp only at h
    cases hq : LA.reqRange ra with
    | error e => simp [hq] at h
    | ok rr =>
      simp only [hq] at h
      split at h
      · simp at h
      · exact new_rep _ (.range _) (reqRange_valid (hr ra rfl) hq) (by simp) a h

/-! ## Mutations -/

theorem SameAs.setItem {l : List Logic} {a b : LA} (i : Int) (v : Logic.Lit) (h : SameAs l a b) :
    (a.setItem i v).1 = (b.setItem i v).1 ∧ Same (a.setItem i v).2 (b.setItem i v).2 := by
  obtain ⟨ha, hb, hr, hw⟩ := h
  obtain ⟨a', e1, a1, a2, a3, a4⟩ := getArray_eq ha
  obtain ⟨b', f1, b1, b2, b3, b4⟩ := getArray_eq hb
  have ht : LA.translate { a' with str := none, int := none } i = LA.translate { b' with str := none, int := none } i := by
    simp [LA.translate, a2, b2, hr]
  unfold LA.setItem
  simp only [e1, f1, ht]
  have hlen : ∀ l' k x, pyListSet l k x = .ok l' → l'.length = l.length := by
    intro l' k x hs
    unfold pyListSet at hs
    split at hs <;> simp at hs
    rw [← hs]; simp
  generalize hq : (do
    let k ← LA.translate { b' with str := none, int := none } i
    let o ← Logic.new .logic v
    pyListSet l k o.v : PyM (List Logic)) = q
  cases q with
  | error e =>
    refine ⟨rfl, l, ?_, ?_, by simp only [a2, b2, hr], by simp only [a3, b3, hw]⟩
    · exact ⟨a1.len, a1.valid, a1.arr, by simp, by simp, fun _ => Or.inr ⟨rfl, by simp [a4]⟩⟩
    · exact ⟨b1.len, b1.valid, b1.arr, by simp, by simp, fun _ => Or.inr ⟨rfl, by simp [b4]⟩⟩
  | ok l' =>
    have hl' : l'.length = l.length := by
      cases hk : LA.translate { b' with str := none, int := none } i with
      | error e => rw [hk] at hq; simp [bind, Except.bind] at hq
      | ok k =>
        rw [hk] at hq
        cases ho : Logic.new .logic v with
        | error e => rw [ho] at hq; simp [bind, Except.bind] at hq
        | ok o =>
          rw [ho] at hq
          exact hlen l' k o.v hq
    refine ⟨rfl, l', ?_, ?_, by simp only [a2, b2, hr], by simp only [a3, b3, hw]⟩
    · exact ⟨by rw [hl']; exact a1.len, a1.valid, fun m hm => by simpa using hm.symm, by simp, by simp,
        fun _ => Or.inr ⟨rfl, by simp⟩⟩
    · exact ⟨by rw [hl']; exact b1.len, b1.valid, fun m hm => by simpa using hm.symm, by simp, by simp,
        fun _ => Or.inr ⟨rfl, by simp⟩⟩

/-- Two right-hand sides with the same content. -/
def SameVal : LA.SliceVal → LA.SliceVal → Prop
  | .self, .self => True
  | .val (.obj a), .val (.obj b) => Same a b
  | .val v, .val w => v = w ∧ ∀ o, v ≠ .obj o
  | _, _ => False

theorem SameAs.setSlice {l : List Logic} {a b : LA} (s : PySlice) (v w : LA.SliceVal) (h : SameAs l a b)
    (hv : SameVal v w) :
    (a.setSlice s v).1 = (b.setSlice s w).1 ∧ Same (a.setSlice s v).2 (b.setSlice s w).2 := by
  obtain ⟨ha, hb, hr, hw⟩ := h
  obtain ⟨a', e1, a1, a2, a3, a4⟩ := getArray_eq ha
  obtain ⟨b', f1, b1, b2, b3, b4⟩ := getArray_eq hb
  have hra : Rep { a' with str := none, int := none } l :=
    ⟨a1.len, a1.valid, a1.arr, by simp, by simp, fun _ => Or.inr ⟨rfl, by simp [a4]⟩⟩
  have hrb : Rep { b' with str := none, int := none } l :=
    ⟨b1.len, b1.valid, b1.arr, by simp, by simp, fun _ => Or.inr ⟨rfl, by simp [b4]⟩⟩
  have hab : SameAs l { a' with str := none, int := none } { b' with str := none, int := none } :=
    ⟨hra, hrb, by simp only [a2, b2, hr], by simp only [a3, b3, hw]⟩
  have hbnd : LA.sliceBounds { a' with str := none, int := none } s =
      LA.sliceBounds { b' with str := none, int := none } s :=
    sliceBounds_congr _ _ (by simp only [a2, b2, hr]) s
  have hval : ∀ n : Int, SameRes
      (LA.new (v.toVal { a' with str := none, int := none }) (.int n))
      (LA.new (w.toVal { b' with str := none, int := none }) (.int n)) := by
    intro n
    cases v with
    | self => cases w with
      | self => exact hab.new (.int n) trivial
      | val w => exact absurd hv (by simp [SameVal])
    | val v => cases w with
      | self => cases v <;> exact absurd hv (by simp [SameVal])
      | val w =>
        by_cases ho : ∃ o, v = .obj o
        · obtain ⟨o, rfl⟩ := ho
          cases w with
          | obj o' =>
            obtain ⟨m, hm⟩ := hv
            exact hm.new (.int n) trivial
          | _ => simp [SameVal] at hv
        · have hno : ∀ o, v ≠ .obj o := fun o e => ho ⟨o, e⟩
          have heq : v = w := by
            cases v with
            | obj o => exact absurd rfl (hno o)
            | _ => cases w <;> first | exact hv.1
          subst heq
          exact SameRes.refl fun c hc => new_rep v (.int n) trivial hno c hc
  unfold LA.setSlice
  simp only [e1, f1, hbnd]
  cases hq : LA.sliceBounds { b' with str := none, int := none } s with
  | error e =>
    simp only [bind, Except.bind]
    exact ⟨trivial, l, hab⟩
  | ok q =>
    obtain ⟨st, sp, si, sj⟩ := q
    simp only [bind, Except.bind]
    have := hval (sj - si + 1)
    generalize hx : LA.new (v.toVal { a' with str := none, int := none }) (.int (sj - si + 1)) = x at this
    generalize hy : LA.new (w.toVal { b' with str := none, int := none }) (.int (sj - si + 1)) = y at this
    cases x with
    | error e =>
      cases y with
      | ok _ => exact absurd this (by simp [SameRes])
      | error e' =>
        simp only [SameRes] at this
        subst this
        exact ⟨rfl, l, hab⟩
    | ok x =>
      cases y with
      | error _ => exact absurd this (by simp [SameRes])
      | ok y =>
        obtain ⟨m, hm⟩ := this
        obtain ⟨x', y', x1, y1, -⟩ := hm.getArray
        simp only [x1, y1]
        have hlen : (pyListSetSlice l si (sj + 1) m).length = l.length := by
          have hobj : ∀ o, w.toVal { b' with str := none, int := none } = .obj o → ∃ m, Rep o m := by
            intro o ho
            cases w with
            | self => simp only [LA.SliceVal.toVal, LAVal.obj.injEq] at ho; subst ho; exact ⟨l, hrb⟩
            | val w =>
              simp only [LA.SliceVal.toVal] at ho
              subst ho
              cases v with
              | self => exact absurd hv (by simp [SameVal])
              | val v =>
                cases v with
                | obj o' => obtain ⟨m, hm⟩ := hv; exact ⟨m, hm.2.1⟩
                | _ => simp [SameVal] at hv
          obtain ⟨m', hm1, hm2⟩ := new_int_rep _ _ y hobj hy
          have := hm.2.1.unique hm1
          subst this
          obtain ⟨L, d, R, hR⟩ := hrb.valid.exists_mk3
          have hbp := Arr.sliceBounds_pos (asArr { b' with str := none, int := none } l) L d R s hR
          rw [← la_sliceBounds_eq, hq] at hbp
          rcases hbp with ⟨h1, -, h3⟩ | ⟨h1, -⟩
          · simp only [Except.ok.injEq, Prod.mk.injEq] at h1
            obtain ⟨-, -, rfl, rfl⟩ := h1
            obtain ⟨p1, p2, p3⟩ := h3
            have q1 := (between_iff_pos L d R _).1 p1
            have q2 := (between_iff_pos L d R _).1 p2
            have hl := hrb.len
            have hlen2 := len_mk3 L d R
            have hR' : b'.range = .mk3 L d R := hR
            simp only [hR'] at hl
            simp only [pyListSetSlice, List.length_append, List.length_take, List.length_drop]
            rw [sliceLo_nonneg (by omega) (by omega), sliceLo_nonneg (by omega) (by omega)]
            omega
          · simp at h1
        refine ⟨trivial, pyListSetSlice l si (sj + 1) m, ?_, ?_, by simp only [a2, b2, hr], by simp only [a3, b3, hw]⟩
        · exact ⟨by rw [hlen]; exact a1.len, a1.valid, fun m hm => by simpa using hm.symm, by simp, by simp,
            fun _ => Or.inr ⟨rfl, by simp⟩⟩
        · exact ⟨by rw [hlen]; exact b1.len, b1.valid, fun m hm => by simpa using hm.symm, by simp, by simp,
            fun _ => Or.inr ⟨rfl, by simp⟩⟩

end Verif
