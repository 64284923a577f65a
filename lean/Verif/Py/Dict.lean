import Verif.Py.Basic
/-!
# Python dictionaries in insertion order
-/
namespace Verif

variable {κ α : Type} [DecidableEq κ]

/-- `d.get(k)`. -/
def dictGet : List (κ × α) → κ → Option α
  | [], _ => none
  | (j, v) :: d, k => if j = k then some v else dictGet d k

/-- `d[k] = v`: an existing key keeps its place. -/
def dictSet : List (κ × α) → κ → α → List (κ × α)
  | [], k, v => [(k, v)]
  | (j, w) :: d, k, v => if j = k then (j, v) :: d else (j, w) :: dictSet d k v

theorem dictGet_set_same (d : List (κ × α)) (k : κ) (v : α) : dictGet (dictSet d k v) k = some v := by
  induction d with
  | nil => simp [dictSet, dictGet]
  | cons x d ih =>
    obtain ⟨j, w⟩ := x
    by_cases h : j = k <;> simp [dictSet, dictGet, h, ih]

theorem dictGet_set_other (d : List (κ × α)) (k j : κ) (v : α) (h : k ≠ j) :
    dictGet (dictSet d k v) j = dictGet d j := by
  induction d with
  | nil => simp [dictSet, dictGet, h]
  | cons x d ih =>
    obtain ⟨i, w⟩ := x
    by_cases hi : i = k
    · subst hi; simp [dictSet, dictGet, h]
    · simp [dictSet, dictGet, hi, ih]

theorem dictGet_set (d : List (κ × α)) (k j : κ) (v : α) :
    dictGet (dictSet d k v) j = if k = j then some v else dictGet d j := by
  by_cases h : k = j
  · subst h; simp [dictGet_set_same]
  · simp [dictGet_set_other _ _ _ _ h, h]

theorem dictGet_mem {d : List (κ × α)} {k : κ} {v : α} (h : dictGet d k = some v) : (k, v) ∈ d := by
  induction d with
  | nil => simp [dictGet] at h
  | cons x d ih =>
    obtain ⟨j, w⟩ := x
    by_cases hj : j = k
    · simp [dictGet, hj] at h; simp [hj, h]
    · simp [dictGet, hj] at h; exact List.mem_cons_of_mem _ (ih h)

theorem dictGet_none_iff {d : List (κ × α)} {k : κ} : dictGet d k = none ↔ k ∉ d.map (·.1) := by
  induction d with
  | nil => simp [dictGet]
  | cons x d ih =>
    obtain ⟨j, w⟩ := x
    by_cases hj : j = k
    · simp [dictGet, hj]
    · simp [dictGet, hj, ih]; exact fun _ e => hj e.symm

theorem dictSet_keys (d : List (κ × α)) (k : κ) (v : α) :
    (dictSet d k v).map (·.1) = if k ∈ d.map (·.1) then d.map (·.1) else d.map (·.1) ++ [k] := by
  induction d with
  | nil => simp [dictSet]
  | cons x d ih =>
    obtain ⟨j, w⟩ := x
    by_cases hj : j = k
    · simp [dictSet, hj]
    · have : ¬ k = j := fun e => hj e.symm
      simp only [dictSet, hj, if_false, List.map_cons, ih, List.mem_cons, this, false_or]
      split <;> simp

theorem dictSet_nodup {d : List (κ × α)} (h : (d.map (·.1)).Nodup) (k : κ) (v : α) :
    ((dictSet d k v).map (·.1)).Nodup := by
  rw [dictSet_keys]
  split
  · exact h
  · rename_i hk
    rw [List.nodup_append]
    refine ⟨h, by simp, ?_⟩
    intro a ha b hb
    simp at hb; subst hb
    intro e; subst e; exact hk ha

theorem dictGet_of_mem {d : List (κ × α)} (h : (d.map (·.1)).Nodup) {k : κ} {v : α}
    (hm : (k, v) ∈ d) : dictGet d k = some v := by
  induction d with
  | nil => simp at hm
  | cons x d ih =>
    obtain ⟨j, w⟩ := x
    simp only [List.map_cons, List.nodup_cons] at h
    rcases List.mem_cons.1 hm with e | e
    · cases e; simp [dictGet]
    · have : j ≠ k := by
        intro e'; subst e'
        exact h.1 (List.mem_map.2 ⟨_, e, rfl⟩)
      simp [dictGet, this, ih h.2 e]

end Verif
