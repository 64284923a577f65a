import Verif.Py.Basic
/-!
# `itertools.product`
-/
namespace Verif

/-- `itertools.product(*pools)`, as its documentation defines it:
`result = [[]]; for pool in pools: result = [x + [y] for x in result for y in pool]`. -/
def pyProduct {α : Type} (pools : List (List α)) : List (List α) :=
  pools.foldl (fun acc pool => acc.flatMap fun x => pool.map fun y => x ++ [y]) [[]]

/-- A choice of one index for each of the sizes. -/
def Fits : List Nat → List Nat → Prop
  | [], [] => True
  | i :: is, n :: ns => i < n ∧ Fits is ns
  | _, _ => False

/-- Lexicographic order: the last index varies fastest. -/
def Before : List Nat → List Nat → Prop
  | i :: is, j :: js => i < j ∨ (i = j ∧ Before is js)
  | _, _ => False

/-- `l` contains each choice exactly once, in lexicographic order. -/
def AllChoices (ns : List Nat) (l : List (List Nat)) : Prop :=
  l.Pairwise Before ∧ ∀ sel, sel ∈ l ↔ Fits sel ns

/-- The elements at the chosen indexes. -/
def choose {α : Type} : List (List α) → List Nat → List α
  | p :: ps, i :: is => match p[i]? with
    | some a => a :: choose ps is
    | none => choose ps is
  | _, _ => []

/-- The product by recursion on the pools. -/
def prodRec {α : Type} : List (List α) → List (List α)
  | [] => [[]]
  | p :: ps => p.flatMap fun y => (prodRec ps).map (y :: ·)

theorem foldl_product {α : Type} : ∀ (ps : List (List α)) (acc : List (List α)),
    ps.foldl (fun acc pool => acc.flatMap fun x => pool.map fun y => x ++ [y]) acc =
      acc.flatMap fun x => (prodRec ps).map (x ++ ·)
  | [], acc => by
    simp only [List.foldl_nil, prodRec, List.map_cons, List.append_nil, List.map_nil]
    induction acc with
    | nil => rfl
    | cons a l ih => rw [List.flatMap_cons, ← ih]; rfl
  | p :: ps, acc => by
    rw [List.foldl_cons, foldl_product ps]
    simp only [prodRec, List.flatMap_assoc, List.map_flatMap]
    congr 1
    funext x
    rw [List.flatMap_map]
    congr 1
    funext y
    simp

theorem pyProduct_eq {α : Type} (ps : List (List α)) : pyProduct ps = prodRec ps := by
  unfold pyProduct
  rw [foldl_product]
  simp

theorem before_irrefl : ∀ l, ¬ Before l l
  | [] => fun h => h
  | i :: l => fun h => by
    rcases h with h | ⟨-, h⟩
    · exact Nat.lt_irrefl _ h
    · exact before_irrefl l h

theorem AllChoices.nodup {ns : List Nat} {l : List (List Nat)} (h : AllChoices ns l) : l.Nodup :=
  h.1.imp fun hb e => by subst e; exact before_irrefl _ hb

theorem prodRec_choices : ∀ ns : List Nat, AllChoices ns (prodRec (ns.map List.range))
  | [] => by
    refine ⟨List.pairwise_singleton _ _, fun sel => ?_⟩
    cases sel <;> simp [prodRec, Fits]
  | n :: ns => by
    obtain ⟨h1, h2⟩ := prodRec_choices ns
    refine ⟨?_, fun sel => ?_⟩
    · simp only [List.map_cons, prodRec]
      rw [List.pairwise_flatMap]
      refine ⟨fun i _ => ?_, ?_⟩
      · rw [List.pairwise_map]
        exact h1.imp fun h => .inr ⟨rfl, h⟩
      · refine List.pairwise_lt_range.imp ?_
        intro i j hij a ha b hb
        obtain ⟨a', -, rfl⟩ := List.mem_map.1 ha
        obtain ⟨b', -, rfl⟩ := List.mem_map.1 hb
        exact .inl hij
    · simp only [List.map_cons, prodRec, List.mem_flatMap, List.mem_range, List.mem_map]
      cases sel with
      | nil => simp [Fits]
      | cons i is =>
        constructor
        · rintro ⟨j, hj, l, hl, e⟩
          cases e
          exact ⟨hj, (h2 _).1 hl⟩
        · rintro ⟨hi, hf⟩
          exact ⟨i, hi, is, (h2 _).2 hf, rfl⟩

theorem prodRec_length {α : Type} : ∀ ps : List (List α), (prodRec ps).length = (ps.map List.length).prod
  | [] => rfl
  | p :: ps => by
    simp only [prodRec, List.length_flatMap, List.length_map, prodRec_length ps, List.map_cons, List.prod_cons]
    rw [show (fun _ : α => (ps.map List.length).prod) = Function.const α (ps.map List.length).prod from rfl,
      List.map_const, List.sum_replicate_nat]

theorem flatMap_index {α β : Type} (g : α → List β) : ∀ p : List α,
    p.flatMap g = (List.range p.length).flatMap fun i => match p[i]? with | some a => g a | none => []
  | [] => rfl
  | a :: p => by
    rw [List.flatMap_cons, flatMap_index g p, List.length_cons, List.range_succ_eq_map, List.flatMap_cons,
      List.flatMap_map]
    simp

/-- The product of the pools, through the indexes. -/
theorem prodRec_choose {α : Type} : ∀ ps : List (List α),
    prodRec ps = (prodRec ((ps.map List.length).map List.range)).map (choose ps)
  | [] => rfl
  | p :: ps => by
    simp only [prodRec, List.map_cons, List.map_flatMap, List.map_map]
    rw [flatMap_index, prodRec_choose ps]
    have hcongr : ∀ (l : List Nat) (f g : Nat → List (List α)), (∀ i ∈ l, f i = g i) → l.flatMap f = l.flatMap g := by
      intro l f g h
      induction l with
      | nil => rfl
      | cons i l ih =>
        rw [List.flatMap_cons, List.flatMap_cons, h i List.mem_cons_self, ih fun j hj => h j (List.mem_cons_of_mem _ hj)]
    refine hcongr _ _ _ fun i hi => ?_
    have hi' := List.mem_range.1 hi
    rw [List.getElem?_eq_getElem hi', List.map_map]
    simp only [List.map_map]
    refine List.map_congr_left fun sel _ => ?_
    simp only [Function.comp_apply, choose, List.getElem?_eq_getElem hi']

end Verif
