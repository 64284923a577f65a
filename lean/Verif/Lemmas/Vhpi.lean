import Verif.Spec.Vhpi
import Verif.Lemmas.RunnerText
/-!
# Lemmas on the model of the VHPI
-/
namespace Verif.Vhpi

open Gpi (decInt)
open Spec
open Runner (decText_digit decText_ne_nil)

/-! ## Text of indices -/

theorem foldl_digits_append (a b : Text) (n : Nat) :
    (a ++ b).foldl (fun a c => 10 * a + (c - 48)) n
      = b.foldl (fun a c => 10 * a + (c - 48)) (a.foldl (fun a c => 10 * a + (c - 48)) n) := List.foldl_append

theorem foldl_of_parse : ∀ (s : PyStr) (a n : Nat), parseDecDigits s a = some n →
    (ofStr s).foldl (fun a c => 10 * a + (c - 48)) a = n := by
  intro s
  induction s with
  | nil => intro a n h; simpa [parseDecDigits, ofStr] using h
  | cons c cs ih =>
    intro a n h
    unfold parseDecDigits at h
    split at h
    · rename_i d hd
      have : c.toNat - 48 = d := by
        unfold decDigit at hd
        split at hd <;> simp_all
      simp only [ofStr, List.map_cons, List.foldl_cons]
      rw [this]; exact ih _ _ h
    · cases h

theorem takeWhile_all {α : Type} (p : α → Bool) : ∀ l : List α, (∀ x ∈ l, p x = true) → l.takeWhile p = l := by
  intro l
  induction l with
  | nil => intro _; rfl
  | cons a l ih =>
    intro h
    rw [List.takeWhile_cons_of_pos (h a List.mem_cons_self), ih fun x hx => h x (List.mem_cons_of_mem _ hx)]

theorem digitsVal_decText (n : Nat) : digitsVal (decText n) = n := by
  unfold digitsVal
  rw [takeWhile_all _ _ fun c hc => by have := decText_digit hc; simp; omega]
  exact foldl_of_parse _ _ _ (parseDecDigits_decStr n)

theorem atoi_decInt (i : Int) : atoi (decInt i) = i := by
  unfold atoi decInt
  by_cases h : i < 0
  · rw [if_pos h, List.dropWhile_cons_of_neg (by simp)]
    simp [digitsVal_decText]; omega
  · rw [if_neg h]
    rcases e : decText i.natAbs with _ | ⟨c, cs⟩
    · exact absurd e (decText_ne_nil _)
    · have hd := decText_digit (n := i.natAbs) (c := c) (by rw [e]; exact List.mem_cons_self)
      rw [List.dropWhile_cons_of_neg (by simp; omega)]
      simp only []
      rw [if_neg (by omega), if_neg (by omega), ← e, digitsVal_decText]; omega

theorem decInt_chars {i : Int} {c : Nat} (h : c ∈ decInt i) : c = 45 ∨ (48 ≤ c ∧ c ≤ 57) := by
  unfold decInt at h
  split at h
  · rcases List.mem_cons.1 h with rfl | h
    · exact Or.inl rfl
    · exact Or.inr (decText_digit h)
  · exact Or.inr (decText_digit h)

theorem decInt_no_paren {i : Int} : 41 ∉ decInt i := fun h => by have := decInt_chars h; omega

theorem pseudoIdx_seg (acc : Text) : ∀ (m t : Text), 41 ∉ m → pseudoIdx acc (m ++ 41 :: t) =
    (match acc ++ m with | [] => atoi t | _ :: k => atoi k) :: pseudoIdx [] t := by
  intro m
  induction m generalizing acc with
  | nil => intro t _; simp only [List.nil_append, List.append_nil, pseudoIdx, if_pos]; cases acc <;> rfl
  | cons c m ih =>
    intro t h
    rw [List.cons_append, pseudoIdx.eq_def]; simp only []
    rw [if_neg (by intro e; apply h; simp [e]), ih _ _ (by intro e; exact h (List.mem_cons_of_mem _ e))]
    simp

theorem pseudoIdx_suffix (is : List Int) : pseudoIdx [] (indexSuffix is) = is := by
  induction is with
  | nil => rfl
  | cons i is ih =>
    have : indexSuffix (i :: is) = (40 :: decInt i) ++ 41 :: indexSuffix is := by simp [indexSuffix]
    rw [this, pseudoIdx_seg _ _ _ (by simpa using decInt_no_paren), ih]
    simp [atoi_decInt]

theorem indexSuffix_length (is : List Int) (h : is ≠ []) : 0 < (indexSuffix is).length := by
  cases is with
  | nil => exact absurd rfl h
  | cons i is => simp [indexSuffix]

theorem usedIdx_suffix (n : Text) (is : List Int) : usedIdx n (n ++ indexSuffix is) = is := by
  unfold usedIdx
  by_cases h : is = []
  · subst h; simp [indexSuffix]
  · rw [if_pos (by have := indexSuffix_length is h; simp; omega), List.drop_left, pseudoIdx_suffix]

theorem count_suffix (is : List Int) : (indexSuffix is).count 41 = is.length := by
  induction is with
  | nil => rfl
  | cons i is ih =>
    have : indexSuffix (i :: is) = (40 :: decInt i) ++ 41 :: indexSuffix is := by simp [indexSuffix]
    rw [this, List.count_append, List.count_eq_zero_of_not_mem (by simpa using decInt_no_paren), List.count_cons_self, ih]
    simp

theorem indexSuffix_append (a b : List Int) : indexSuffix (a ++ b) = indexSuffix a ++ indexSuffix b := by
  induction a with
  | nil => rfl
  | cons i a ih => simp [indexSuffix, ih]

theorem decStr_length (n : Nat) : ∀ k, n < 10 ^ (k + 1) → (decStr n).length ≤ k + 1 := by
  intro k
  induction k generalizing n with
  | zero => intro h; unfold decStr; rw [if_pos (by omega)]; simp
  | succ k ih =>
    intro h
    unfold decStr
    split
    · simp
    · have := ih (n / 10) (by rw [Nat.div_lt_iff_lt_mul (by omega)]; rw [Nat.pow_succ] at h; omega)
      simp; omega

theorem decInt_length {i : Int} (h : VhdlInt i) : (decInt i).length ≤ 11 := by
  have := decStr_length i.natAbs 9 (by have := h; unfold VhdlInt at this; omega)
  unfold decInt decText ofStr
  split <;> simp <;> omega

theorem idxText_eq {i : Int} (h : VhdlInt i) : idxText i = indexSuffix [i] := by
  unfold idxText
  rw [List.take_of_length_le (by have := decInt_length h; simp; omega)]
  simp [indexSuffix]

/-! ## Positions -/

/-- The position of an index in its dimension as the code computes it. -/
def posIn (l r i : Int) : Int := if l > r then l - i else i - l

/-- The number of elements of a dimension as the code computes it. -/
def lenOf (l r : Int) : Int := if l > r then l - r + 1 else r - l + 1

theorem seq_some {d : Rng} {k : Nat} {i : Int} (h : d.seq[k]? = some i) :
    posIn d.1 d.2.2 i = k ∧ lenOf d.1 d.2.2 = d.seq.length ∧ (k : Int) < lenOf d.1 d.2.2 := by
  obtain ⟨l, d, r⟩ := d
  have hk := (List.getElem?_eq_some_iff.1 h).1
  unfold Rng.seq rangeSeq at *
  unfold posIn lenOf
  cases d
  · simp only [List.getElem?_map, List.length_map, List.length_range] at *
    rw [List.getElem?_range hk] at h
    simp at h
    split <;> omega
  · simp only [List.getElem?_map, List.length_map, List.length_range] at *
    rw [List.getElem?_range hk] at h
    simp at h
    split <;> omega

theorem seq_bounds {d : Rng} {i : Int} (h : i ∈ d.seq) (hl : VhdlInt d.1) (hr : VhdlInt d.2.2) : VhdlInt i := by
  obtain ⟨l, d, r⟩ := d
  unfold Rng.seq rangeSeq at h
  unfold VhdlInt at *
  cases d <;> simp at h <;> obtain ⟨k, hk, rfl⟩ := h <;> simp at hl hr <;> omega

theorem flatMap_get {α β : Type} (f : α → List β) (n : Nat) : ∀ (L : List α), (∀ a ∈ L, (f a).length = n) →
    ∀ (k : Nat) (x : β), (L.flatMap f)[k]? = some x →
    ∃ a b i, k = a * n + b ∧ b < n ∧ L[a]? = some i ∧ (f i)[b]? = some x := by
  intro L
  induction L with
  | nil => intro _ k x h; simp at h
  | cons y L ih =>
    intro hn k x h
    rw [List.flatMap_cons] at h
    have hy := hn y List.mem_cons_self
    by_cases hk : k < n
    · rw [List.getElem?_append_left (by omega)] at h
      exact ⟨0, k, y, by omega, hk, rfl, h⟩
    · rw [List.getElem?_append_right (by omega)] at h
      obtain ⟨a, b, i, e, hb, hl, hx⟩ := ih (fun a ha => hn a (List.mem_cons_of_mem _ ha)) _ _ h
      refine ⟨a + 1, b, i, ?_, hb, by simpa using hl, hx⟩
      rw [Nat.add_mul]; omega

/-- The position of the indices in row-major order. -/
def rowMajor : List Rng → List Int → Int
  | d :: ds, i :: is => posIn d.1 d.2.2 i * (tuples ds).length + rowMajor ds is
  | _, _ => 0

theorem tuples_get : ∀ (ds : List Rng) (k : Nat) (is : List Int), (tuples ds)[k]? = some is →
    is.length = ds.length ∧ rowMajor ds is = k ∧
    ((tuples ds).length : Int) = (ds.map fun d => lenOf d.1 d.2.2).foldr (· * ·) 1 ∧
    ∀ (j : Nat) (d : Rng) (i : Int), ds[j]? = some d → is[j]? = some i → i ∈ d.seq := by
  intro ds
  induction ds with
  | nil => intro k is h; unfold tuples at h; cases k with
    | zero => simp at h; subst h; simp [rowMajor, tuples]
    | succ k => simp at h
  | cons d ds ih =>
    intro k is h
    unfold tuples at h
    obtain ⟨a, b, i, rfl, hb, hs, hx⟩ := flatMap_get _ (tuples ds).length _ (by simp) _ _ h
    rw [List.getElem?_map] at hx
    rcases e : (tuples ds)[b]? with _ | t
    · rw [e] at hx; cases hx
    · rw [e] at hx
      simp at hx; subst hx
      obtain ⟨h1, h2, h3, h4⟩ := ih _ _ e
      obtain ⟨p1, p2, p3⟩ := seq_some hs
      refine ⟨by simp [h1], ?_, ?_, ?_⟩
      · simp only [rowMajor, h2, p1]; simp
      · have hl : (tuples (d :: ds)).length = d.seq.length * (tuples ds).length := by
          conv => lhs; unfold tuples
          rw [List.length_flatMap]
          simp [Function.comp_def, List.map_const', List.sum_replicate_nat]
        rw [hl]; simp only [List.map_cons, List.foldr_cons, ← h3, p2]; simp
      · intro j d' i' hd hi
        cases j with
        | zero => simp at hd hi; subst hd hi; exact List.mem_of_getElem? hs
        | succ j => simp at hd hi; exact h4 j d' i' hd hi

/-- The product of the lengths. -/
def prodLen (ks : List Con) : Int := (ks.map fun k => lenOf k.left k.right).foldr (· * ·) 1

theorem flatGo_one (k : Con) (i : Int) : ∀ (a : List Con) (b : List Int), a.length = b.length → ∀ idx scale,
    flatGo (a ++ [k]) (b ++ [i]) idx scale = flatGo a b idx scale + scale * prodLen a * posIn k.left k.right i := by
  intro a
  induction a with
  | nil =>
    intro b h idx scale
    have : b = [] := by simpa using h.symm
    subst this
    simp only [List.nil_append, flatGo, prodLen, posIn, List.map_nil, List.foldr_nil, Int.mul_one]
    split <;> rfl
  | cons x a ih =>
    intro b h idx scale
    cases b with
    | nil => cases h
    | cons y b =>
      simp only [List.cons_append, flatGo, prodLen, lenOf, List.map_cons, List.foldr_cons]
      have hl : a.length = b.length := by simpa using h
      split
      · rw [ih b hl]; simp only [prodLen, lenOf, Int.mul_assoc]
      · rw [ih b hl]; simp only [prodLen, lenOf, Int.mul_assoc]

theorem prodLen_reverse (ks : List Con) : prodLen ks.reverse = prodLen ks := by
  have happ : ∀ a b : List Con, prodLen (a ++ b) = prodLen a * prodLen b := by
    intro a b
    induction a with
    | nil => simp [prodLen]
    | cons x a ih => simp only [prodLen, List.cons_append, List.map_cons, List.foldr_cons] at *; rw [ih, Int.mul_assoc]
  induction ks with
  | nil => rfl
  | cons k ks ih => rw [List.reverse_cons, happ, ih]; simp [prodLen, Int.mul_comm]

theorem flatGo_rowMajor : ∀ (ds : List Rng) (k : Nat) (is : List Int), (tuples ds)[k]? = some is →
    flatGo (ds.map conOf).reverse is.reverse 0 1 = k := by
  intro ds
  induction ds with
  | nil => intro k is h; unfold tuples at h; cases k with
    | zero => simp at h; subst h; simp [flatGo]
    | succ k => simp at h
  | cons d ds ih =>
    intro k is h
    unfold tuples at h
    obtain ⟨a, b, i, rfl, hb, hs, hx⟩ := flatMap_get _ (tuples ds).length _ (by simp) _ _ h
    rw [List.getElem?_map] at hx
    rcases e : (tuples ds)[b]? with _ | t
    · rw [e] at hx; cases hx
    · rw [e] at hx
      simp at hx; subst hx
      obtain ⟨h1, h2, h3, h4⟩ := tuples_get _ _ _ e
      obtain ⟨p1, p2, p3⟩ := seq_some hs
      simp only [List.map_cons, List.reverse_cons]
      rw [flatGo_one _ _ _ _ (by simp [h1]), ih _ _ e, prodLen_reverse]
      have : prodLen (ds.map conOf) = ((tuples ds).length : Int) := by
        rw [h3]; simp [prodLen, Function.comp_def, conOf]
      rw [this]
      simp only [conOf, p1]
      simp [Int.mul_comm, Int.add_comm]

/-! ## Walking -/

theorem noBounds_iff (c : Flavor) (k : Con) : noBounds c k = decide (Unbounded c k) := by
  unfold noBounds Unbounded
  split <;> simp [Bool.beq_eq_decide_eq]

theorem array_bounds {c : Flavor} {V : Vhpi} {h : H} {ds : List Rng} {es : List H} (A : VhdlArray c V h ds es) :
    (V.baseCons h = ds.map conOf ∧ ∀ d ∈ ds, noBounds c (conOf d) = false) ∨
      ((∀ k ∈ V.baseCons h, noBounds c k = true) ∧ V.subCons h = ds.map conOf) := by
  simp only [noBounds_iff, decide_eq_true_eq, decide_eq_false_iff_not]
  exact A.bounds

theorem rangeOf_array {c : Flavor} {V : Vhpi} {h : H} {ds : List Rng} {es : List H} (A : VhdlArray c V h ds es)
    {j : Nat} {d : Rng} (hj : ds[j]? = some d) :
    rangeOf c V h j = some (d.1, d.2.2, conDir c (conOf d)) := by
  obtain ⟨e, he⟩ := A.array
  unfold rangeOf
  rw [he]
  rcases array_bounds A with ⟨hb, hn⟩ | ⟨hb, hs⟩
  · simp only [hb, List.getElem?_map, hj, Option.map_some, hn d (List.mem_of_getElem? hj)]
    simp [conOf]
  · simp only [hs, List.getElem?_map, hj, Option.map_some]
    rcases e : (V.baseCons h)[j]? with _ | k
    · simp [conOf]
    · simp [conOf, hb k (List.mem_of_getElem? e)]

theorem constraints_array {c : Flavor} {V : Vhpi} {h : H} {ds : List Rng} {es : List H}
    (A : VhdlArray c V h ds es) : constraints c V h = some (ds.map conOf) := by
  unfold constraints
  rw [A.numDim]
  rcases array_bounds A with ⟨hb, hn⟩ | ⟨hb, hs⟩
  · rw [hb, takeWhile_all _ _ (by intro x hx; obtain ⟨d, hd, rfl⟩ := List.mem_map.1 hx; simp [hn d hd])]
    simp
  · have h0 : ((V.baseCons h).takeWhile fun k => !noBounds c k) = [] := by
      rcases e : V.baseCons h with _ | ⟨k, ks⟩
      · rfl
      · rw [List.takeWhile_cons_of_neg]; simp [hb k (by rw [e]; exact List.mem_cons_self)]
    have hne : 0 ≠ ds.length := by intro e; exact A.some_dim (List.length_eq_zero_iff.1 e.symm)
    simp only [h0, List.length_nil, if_neg hne]
    rw [hs, takeWhile_all _ _ (by intro x hx; obtain ⟨d, hd, rfl⟩ := List.mem_map.1 hx; simp [conOf])]
    simp

/-- The number of elements of a constraint with a direction, VhpiObj.cpp:190-197. -/
def clampLen (c : Flavor) (d : Rng) : Int :=
  let n := if conDir c (conOf d) = .down then d.1 - d.2.2 + 1 else d.2.2 - d.1 + 1
  if n < 0 then 0 else n

/-- The object of an array with some of its indices. -/
def pseudo (c : Flavor) (h : H) (N F : Text) (d : Rng) (q : List Int) : Obj :=
  { hdl := h, type := .array, indexable := true, left := d.1, right := d.2.2, dir := conDir c (conOf d),
    numElems := clampLen c d, name := N ++ indexSuffix q, full := F ++ indexSuffix q }

section
variable {c : Flavor} {V : Vhpi} {h : H} {ds : List Rng} {es : List H} (A : VhdlArray c V h ds es)
  {N F : Text} (hN : V.caseName h = some N) (hm : 1 < ds.length)
include A hN hm

theorem create_pseudo {q : List Int} {d : Rng} (hd : ds[q.length]? = some d) :
    createObj c V h (N ++ indexSuffix q) (F ++ indexSuffix q) = some (pseudo c h N F d q) := by
  obtain ⟨e, he⟩ := A.array
  have hdim : dimOf V h (N ++ indexSuffix q) = q.length := by
    unfold dimOf
    rw [A.numDim, if_pos hm, hN]
    simp only [Option.getD_some]
    by_cases hq : q = []
    · subst hq; simp [indexSuffix]
    · rw [if_pos (by have := indexSuffix_length q hq; simp; omega), List.drop_left, count_suffix]
  unfold createObj
  rw [if_neg A.object]
  have ht : gpiType c V h (N ++ indexSuffix q) = some .array := by
    unfold gpiType; rw [he]; simp [A.numDim, hm]
  rw [ht]
  simp only [initArray, he, hdim, rangeOf_array A hd]
  rfl

theorem byIndex_pseudo {q : List Int} {d : Rng} {i : Int} (hi : VhdlInt i) (hq : q.length + 1 < ds.length) :
    vhpiByIndex c V i (pseudo c h N F d q) =
      createObj c V h (N ++ indexSuffix (q ++ [i])) (F ++ indexSuffix (q ++ [i])) := by
  obtain ⟨e, he⟩ := A.array
  unfold vhpiByIndex resolveIndex
  simp only [pseudo, he, A.numDim, hm, if_pos, hN, Option.getD_some, usedIdx_suffix, List.length_append, List.length_singleton]
  rw [if_neg (by omega)]
  simp [idxSuffix, idxText_eq hi, indexSuffix_append]

theorem byIndex_last {q : List Int} {d : Rng} {i : Int} (hi : VhdlInt i) (hq : q.length + 1 = ds.length) :
    vhpiByIndex c V i (pseudo c h N F d q) =
      (elemAt V h (flatGo (ds.map conOf).reverse (q ++ [i]).reverse 0 1)).bind fun x =>
        createObj c V x (N ++ indexSuffix (q ++ [i])) (F ++ indexSuffix (q ++ [i])) := by
  obtain ⟨e, he⟩ := A.array
  unfold vhpiByIndex resolveIndex
  simp only [pseudo, he, A.numDim, hm, if_pos, hN, Option.getD_some, usedIdx_suffix, List.length_append, List.length_singleton]
  rw [if_pos hq, constraints_array A]
  simp only []
  cases elemAt V h (flatGo (ds.map conOf).reverse (q ++ [i]).reverse 0 1) with
  | none => rfl
  | some x => simp [idxSuffix, idxText_eq hi, indexSuffix_append]

theorem walk_pseudo : ∀ (p q : List Int) (d : Rng), ds[q.length]? = some d → (∀ i ∈ p, VhdlInt i) →
    q.length + p.length < ds.length → ∃ d', ds[q.length + p.length]? = some d' ∧
    walk c V (pseudo c h N F d q) p = some (pseudo c h N F d' (q ++ p)) := by
  intro p
  induction p with
  | nil => intro q d hd _ _; exact ⟨d, by simpa using hd, by simp [walk]⟩
  | cons i p ih =>
    intro q d hd hi hl
    simp only [List.length_cons] at hl ⊢
    obtain ⟨d1, hd1⟩ : ∃ d1, ds[(q ++ [i]).length]? = some d1 :=
      ⟨_, List.getElem?_eq_getElem (by simp; omega)⟩
    obtain ⟨d', h1, h2⟩ := ih (q ++ [i]) d1 hd1 (fun j hj => hi j (List.mem_cons_of_mem _ hj)) (by simp; omega)
    refine ⟨d', by rw [← h1]; congr 1; simp; omega, ?_⟩
    rw [walk, byIndex_pseudo A hN hm (hi i List.mem_cons_self) (by omega), create_pseudo A hN hm hd1]
    simp only [Option.bind_some, h2]; simp

theorem walk_last : ∀ (p q : List Int) (d : Rng), ds[q.length]? = some d → (∀ i ∈ p, VhdlInt i) →
    q.length + p.length = ds.length →
    walk c V (pseudo c h N F d q) p =
      (elemAt V h (flatGo (ds.map conOf).reverse (q ++ p).reverse 0 1)).bind fun x =>
        createObj c V x (N ++ indexSuffix (q ++ p)) (F ++ indexSuffix (q ++ p)) := by
  intro p
  induction p with
  | nil =>
    intro q d hd _ hl
    have := (List.getElem?_eq_some_iff.1 hd).1
    simp at hl; omega
  | cons i p ih =>
    intro q d hd hi hl
    simp only [List.length_cons] at hl
    rw [walk]
    by_cases hp : p = []
    · subst hp
      rw [byIndex_last A hN hm (hi i List.mem_cons_self) (by simpa using hl)]
      simp [walk]
    · have hpl : 0 < p.length := List.length_pos_iff.2 hp
      obtain ⟨d1, hd1⟩ : ∃ d1, ds[(q ++ [i]).length]? = some d1 :=
        ⟨_, List.getElem?_eq_getElem (by simp; omega)⟩
      rw [byIndex_pseudo A hN hm (hi i List.mem_cons_self) (by omega), create_pseudo A hN hm hd1]
      simp only [Option.bind_some]
      rw [ih (q ++ [i]) d1 hd1 (fun j hj => hi j (List.mem_cons_of_mem _ hj)) (by simp; omega)]
      simp

end

theorem elemAt_array {c : Flavor} {V : Vhpi} {h : H} {ds : List Rng} {es : List H} (A : VhdlArray c V h ds es)
    (k : Nat) : elemAt V h k = es[k]? := by
  unfold elemAt
  rw [A.elements]
  rcases A.byIndex k with e | ⟨_, e⟩
  · rw [e]; simp; omega
  · rw [e]; simp; cases es[k]? <;> rfl

theorem elemAt_neg {c : Flavor} {V : Vhpi} {h : H} {ds : List Rng} {es : List H} (A : VhdlArray c V h ds es)
    {i : Int} (hi : i < 0) : elemAt V h i = none := by
  unfold elemAt
  rcases A.byIndex i with e | ⟨e, _⟩
  · rw [e]; simp [hi]
  · omega

/-- An object of an array with one dimension has the bounds of the array. -/
theorem create_one {c : Flavor} {V : Vhpi} {h : H} {d : Rng} {es : List H} (A : VhdlArray c V h [d] es)
    {N F : Text} {o : Obj} (ho : createObj c V h N F = some o) :
    o.hdl = h ∧ o.name = N ∧ o.full = F ∧ o.left = d.1 ∧ o.right = d.2.2 ∧ o.dir = conDir c (conOf d) ∧
    (o.type = .array ∧ o.numElems = clampLen c d ∨
      (o.type = .logicArray ∨ o.type = .fixedString) ∧ o.numElems = V.size h) ∧ o.indexable = true := by
  obtain ⟨e, he⟩ := A.array
  have hr := rangeOf_array A (j := 0) (d := d) rfl
  have hd : V.numDim h = 1 := A.numDim
  unfold createObj at ho
  rw [if_neg A.object] at ho
  have hdim : dimOf V h N = 0 := by unfold dimOf; rw [if_neg (by omega)]
  have ht : gpiType c V h N = some .array ∨ gpiType c V h N = some .logicArray ∨ gpiType c V h N = some .fixedString := by
    unfold gpiType; rw [he]; simp only [hd]
    cases e with
    | none => simp
    | some e => cases e with
      | other => simp
      | enum n ls => simp only [Nat.lt_irrefl, gt_iff_lt, if_false]; cases isLogic n ls <;> cases isChar n ls <;> simp
  rcases ht with ht | ht | ht <;> rw [ht] at ho
  · simp only [initArray, he, hdim, hr, Option.some.injEq] at ho
    subst ho
    exact ⟨rfl, rfl, rfl, rfl, rfl, rfl, Or.inl ⟨rfl, rfl⟩, rfl⟩
  · simp only [initLogic, he, withRange, hr, Option.some.injEq] at ho
    subst ho
    exact ⟨rfl, rfl, rfl, rfl, rfl, rfl, Or.inr ⟨Or.inl rfl, rfl⟩, rfl⟩
  · simp only [initSignal, A.chars, withRange, hr, Option.some.injEq] at ho
    subst ho
    exact ⟨rfl, rfl, rfl, rfl, rfl, rfl, Or.inr ⟨Or.inr rfl, rfl⟩, rfl⟩

theorem byIndex_one {c : Flavor} {V : Vhpi} {h : H} {d : Rng} {es : List H} (A : VhdlArray c V h [d] es)
    {N F : Text} {o : Obj} (ho : createObj c V h N F = some o) (i : Int) (hi : VhdlInt i) :
    vhpiByIndex c V i o = (elemAt V h (posIn d.1 d.2.2 i)).bind fun x =>
      createObj c V x (N ++ indexSuffix [i]) (F ++ indexSuffix [i]) := by
  obtain ⟨e, he⟩ := A.array
  obtain ⟨h1, h2, h3, h4, h5, _, h6, _⟩ := create_one A ho
  have hd : V.numDim h = 1 := A.numDim
  have hres : resolveIndex c V i o = elemAt V h (posIn d.1 d.2.2 i) := by
    unfold resolveIndex posIn
    rcases h6 with ⟨h6, _⟩ | ⟨h6 | h6, _⟩ <;> simp [h6, h1, he, hd, h4, h5]
  have hsuf : idxSuffix c o i = indexSuffix [i] := by
    unfold idxSuffix
    rw [if_neg (by rcases h6 with ⟨h6, _⟩ | ⟨h6 | h6, _⟩ <;> simp [h6]), idxText_eq hi]
  unfold vhpiByIndex
  rw [hres, hsuf, h2, h3]
  cases elemAt V h (posIn d.1 d.2.2 i) <;> rfl

end Verif.Vhpi
