import Verif.Spec.GpiArray
import Verif.Props.Gpi
import Verif.Lemmas.RunnerText
/-!
# C147: arrays with several dimensions through the VPI
-/
namespace Verif
open Gpi GpiArray

namespace GpiArray

theorem decInt_char {i : Int} {c : Nat} (h : c ∈ decInt i) : c = 45 ∨ (48 ≤ c ∧ c ≤ 57) := by
  unfold decInt at h
  split at h
  · rcases List.mem_cons.mp h with h | h
    · exact .inl h
    · exact .inr (Runner.decText_digit h)
  · exact .inr (Runner.decText_digit h)

theorem indices_append (is js : List Int) : indices (is ++ js) = indices is ++ indices js := by
  induction is with
  | nil => rfl
  | cons i is ih => simp [indices, ih]

theorem indices_char {is : List Int} {c : Nat} (h : c ∈ indices is) : c = 91 ∨ c = 93 ∨ c = 45 ∨ (48 ≤ c ∧ c ≤ 57) := by
  induction is with
  | nil => simp [indices] at h
  | cons i is ih =>
    simp only [indices, List.cons_append, List.append_assoc, List.mem_cons, List.mem_append, List.nil_append] at h
    rcases h with h | h | h | h
    · exact .inl h
    · have := decInt_char h; omega
    · exact .inr (.inl h)
    · exact ih h

theorem decInt_count (i : Int) (c : Nat) (h : c = 91 ∨ c = 93) : (decInt i).count c = 0 := by
  rw [List.count_eq_zero]
  intro hm
  have := decInt_char hm
  omega

theorem indices_count (is : List Int) (c : Nat) (h : c = 91 ∨ c = 93) : (indices is).count c = is.length := by
  induction is with
  | nil => rfl
  | cons i is ih =>
    simp only [indices, List.count_append, List.count_cons, decInt_count i c h, ih, List.length_cons, List.count_nil]
    rcases h with rfl | rfl <;> simp <;> omega

theorem rfind_absent {p : Text} : ∀ {t : Text}, (∀ a b, t ≠ a ++ p ++ b) → rfindSuffix p t = none
  | [], h => by
    unfold rfindSuffix
    rw [if_neg]
    intro e
    exact h [] [] (by simp [e])
  | c :: t, h => by
    unfold rfindSuffix
    rw [rfind_absent (t := t) (fun a b e => h (c :: a) b (by simp [e]))]
    dsimp only
    rw [if_neg]
    intro hp
    obtain ⟨b, hb⟩ := List.isPrefixOf_iff_prefix.mp hp
    exact h [] b (by simp [hb])

/-- The name of the array does not occur again behind its beginning. -/
theorem rfind_name {x : Nat} {m s : Text} (h91 : 91 ∉ x :: m) (hx : x ∉ s) (hs : s.head? = some 91) :
    rfindSuffix (x :: m) (x :: m ++ s) = some (x :: m ++ s) := by
  have hno : rfindSuffix (x :: m) (m ++ s) = none := by
    apply rfind_absent
    intro a b e
    rw [List.append_assoc] at e
    rcases List.append_eq_append_iff.mp e with ⟨c, h1, h2⟩ | ⟨c, h1, h2⟩
    · -- `a` ends in `s`
      exact hx (by rw [h2]; simp)
    · -- `a` ends in `m`
      obtain ⟨s', rfl⟩ : ∃ s', s = 91 :: s' := by
        cases s with
        | nil => simp at hs
        | cons y s' => simp at hs; exact ⟨s', by rw [hs]⟩
      rcases List.append_eq_append_iff.mp h2 with ⟨d, g1, g2⟩ | ⟨d, g1, g2⟩
      · have := congrArg List.length g1
        have := congrArg List.length h1
        simp only [List.length_append, List.length_cons] at *
        omega
      · cases d with
        | nil =>
          have := congrArg List.length g1
          have := congrArg List.length h1
          simp only [List.length_append, List.length_cons, List.length_nil] at *
          omega
        | cons y d =>
          simp only [List.cons_append, List.cons.injEq] at g2
          exact h91 (by rw [g1, ← g2.1]; simp)
  show rfindSuffix (x :: m) (x :: (m ++ s)) = _
  rw [rfindSuffix, hno]
  dsimp only
  rw [if_pos]
  · rfl
  · exact List.isPrefixOf_iff_prefix.mpr ⟨s, rfl⟩

/-- The handle for the array after some indices. -/
def part (h : H) (n full : Text) (is : List Int) (b : Int × Int) : Obj :=
  { impl := 0, hdl := h, type := .array, indexable := true, left := b.1, right := b.2,
    numElems := if b.1 > b.2 then b.1 - b.2 + 1 else b.2 - b.1 + 1, dir := if b.1 > b.2 then .down else .up,
    name := n ++ indices is, full := full ++ indices is }

theorem rangeIdx_indices {V : Vpi} {h : H} {n full : Text} {rs : List (Int × Int)} (hw : Whole V h n full rs) (is : List Int) :
    rangeIdx n (n ++ indices is) = some is.length := by
  obtain ⟨x, m, rfl, h1, h2, h3, h4⟩ := hw.ident
  unfold rangeIdx
  cases is with
  | nil => simp [indices]
  | cons i is =>
    have hx : x ∉ indices (i :: is) := by
      intro hx
      have := indices_char hx
      rcases this with rfl | h | h | h
      · exact h4 (by simp)
      · exact h2 h
      · exact h1 h
      · exact h3 h
    rw [if_pos (by simp [indices]), rfind_name h4 hx rfl]
    simp only [Option.map_some, List.count_append, lbr, indices_count (i :: is) 91 (.inl rfl), List.count_eq_zero.mpr h4, Nat.zero_add]

theorem create_part {c : Flavor} (hc : c.rangesFromFirst = true) {V : Vpi} {h : H} {n full : Text} {rs : List (Int × Int)} (hw : Whole V h n full rs)
    (is : List Int) (b : Int × Int) (hb : rs[is.length]? = some b) :
    createObj c V 0 h (n ++ indices is) (full ++ indices is) = some (part h n full is b) := by
  obtain ⟨t, ht, hty⟩ := hw.type
  have hi : ∀ o : Obj, o.hdl = h → initArray c V o (n ++ indices is) (full ++ indices is) = some { o with
        indexable := true, left := b.1, right := b.2
        numElems := if b.1 > b.2 then b.1 - b.2 + 1 else b.2 - b.1 + 1
        dir := if b.1 > b.2 then .down else .up
        name := n ++ indices is, full := full ++ indices is } := by
    intro o ho
    unfold initArray
    rw [ho, hw.name, Option.getD_some, rangeIdx_indices hw, hw.ranges]
    simp only [hc, if_true, hb]
  simp only [List.mem_cons, List.not_mem_nil, or_false] at ht
  rcases ht with rfl | rfl | rfl | rfl <;>
  · simp only [createObj, hty, gpiType]
    rw [hi _ rfl]
    rfl

/-- One more index. -/
theorem step_part {c : Flavor} (hc : c.rangesFromFirst = true) {V : Vpi} {h : H} {n full : Text} {rs : List (Int × Int)} (hw : Whole V h n full rs)
    (is : List Int) (b : Int × Int) (hb : rs[is.length]? = some b) (i : Int) (hi : isInt32 i = true) :
    vpiByIndex c V 0 i (part h n full is b) =
      if (b.1 ≤ i ∧ i ≤ b.2) ∨ (b.2 ≤ i ∧ i ≤ b.1) then
        match rs[is.length + 1]? with
        | some b' => some (part h n full (is ++ [i]) b')
        | none => (V.byName (full ++ indices (is ++ [i]))).bind fun h' => createObj c V 0 h' (n ++ indices (is ++ [i])) (full ++ indices (is ++ [i]))
      else none := by
  have hx : idxText i = indices [i] := by rw [idxText_eq hi]; simp [indices, lbr]
  have hlen : is.length < rs.length := by
    rw [List.getElem?_eq_some_iff] at hb
    exact hb.1
  have hname : n ++ indices is ++ indices [i] = n ++ indices (is ++ [i]) := by rw [indices_append, List.append_assoc]
  have hfull : full ++ indices is ++ indices [i] = full ++ indices (is ++ [i]) := by rw [indices_append, List.append_assoc]
  have hused : usedIndices n (n ++ indices is) = is.length := by
    unfold usedIndices
    split
    · rw [List.drop_left, indices_count is 93 (.inr rfl)]
    · rename_i hl
      cases is with
      | nil => rfl
      | cons j js => simp [indices] at hl
  have hres : resolveIndex V i (part h n full is b) = if (b.1 ≤ i ∧ i ≤ b.2) ∨ (b.2 ≤ i ∧ i ≤ b.1) then
      (match V.byName (full ++ indices (is ++ [i])) with
        | some h' => some h'
        | none => if is.length + 1 < rs.length then some h else none) else none := by
    unfold resolveIndex part
    simp only [hw.noIndex, hw.name, hw.ranges, Option.getD_some, hused, hx, hfull]
    by_cases hd : b.1 > b.2
    · simp only [hd, if_true]
      by_cases hr : (b.1 ≤ i ∧ i ≤ b.2) ∨ (b.2 ≤ i ∧ i ≤ b.1)
      · rw [if_pos hr, if_neg]
        · cases V.byName (full ++ indices (is ++ [i])) with
          | some h' => rfl
          | none =>
            dsimp only
            by_cases hk : is.length + 1 < rs.length
            · rw [if_pos hk, if_pos (by omega)]
            · rw [if_neg hk, if_neg (by omega)]
        · simp; omega
      · rw [if_neg hr, if_pos]
        simp; omega
    · simp only [hd, if_false]
      by_cases hr : (b.1 ≤ i ∧ i ≤ b.2) ∨ (b.2 ≤ i ∧ i ≤ b.1)
      · rw [if_pos hr, if_neg]
        · cases V.byName (full ++ indices (is ++ [i])) with
          | some h' => rfl
          | none =>
            dsimp only
            by_cases hk : is.length + 1 < rs.length
            · rw [if_pos hk, if_pos (by omega)]
            · rw [if_neg hk, if_neg (by omega)]
        · simp; omega
      · rw [if_neg hr, if_pos]
        simp; omega
  unfold vpiByIndex
  rw [hres]
  by_cases hr : (b.1 ≤ i ∧ i ≤ b.2) ∨ (b.2 ≤ i ∧ i ≤ b.1)
  · rw [if_pos hr, if_pos hr]
    show (match (match V.byName (full ++ indices (is ++ [i])) with
        | some h' => some h'
        | none => if is.length + 1 < rs.length then some h else none) with
      | none => none
      | some h' => createObj c V 0 h' (n ++ indices is ++ idxText i) (full ++ indices is ++ idxText i)) = _
    rw [hx, hname, hfull]
    cases hb' : rs[is.length + 1]? with
    | some b' =>
      have hlt : is.length + 1 < rs.length := by
        rw [List.getElem?_eq_some_iff] at hb'
        exact hb'.1
      rw [hw.noParts (is ++ [i]) (by simp [hlt]) (by simp)]
      dsimp only
      rw [if_pos hlt]
      dsimp only
      exact create_part hc hw (is ++ [i]) b' (by simpa using hb')
    | none =>
      have : ¬ is.length + 1 < rs.length := by
        rw [List.getElem?_eq_none_iff] at hb'
        omega
      cases V.byName (full ++ indices (is ++ [i])) with
      | some h' => rfl
      | none =>
        dsimp only
        rw [if_neg this]
        rfl
  · rw [if_neg hr, if_neg hr]

theorem within_snoc (is : List Int) (i : Int) (rs : List (Int × Int)) :
    Within (is ++ [i]) rs ↔ Within is rs ∧ ∃ b, rs[is.length]? = some b ∧ ((b.1 ≤ i ∧ i ≤ b.2) ∨ (b.2 ≤ i ∧ i ≤ b.1)) := by
  induction is generalizing rs with
  | nil =>
    cases rs with
    | nil => simp [Within]
    | cons b rs => obtain ⟨l, r⟩ := b; simp [Within]
  | cons j is ih =>
    cases rs with
    | nil => simp [Within]
    | cons b rs =>
      obtain ⟨l, r⟩ := b
      simp only [List.cons_append, Within, ih, List.length_cons, List.getElem?_cons_succ, and_assoc]

/-- The walk along all the indices. -/
theorem walk_part {c : Flavor} (hc : c.rangesFromFirst = true) {V : Vpi} {h : H} {n full : Text} {rs : List (Int × Int)} (hw : Whole V h n full rs)
    (o : Obj) (ho : createObj c V 0 h n full = some o) (is : List Int) (hi : ∀ i ∈ is, isInt32 i = true) (hl : is.length ≤ rs.length) (hne : rs ≠ []) :
    (Within is rs → walk c V o is = match rs[is.length]? with
      | some b => some (part h n full is b)
      | none => (V.byName (full ++ indices is)).bind fun h' => createObj c V 0 h' (n ++ indices is) (full ++ indices is)) ∧
    (¬ Within is rs → walk c V o is = none) := by
  induction hk : is.length generalizing is with
  | zero =>
    have : is = [] := List.length_eq_zero_iff.mp hk
    subst this
    refine ⟨fun _ => ?_, fun hn => absurd (by simp [Within]) hn⟩
    cases rs with
    | nil => exact absurd rfl hne
    | cons b rs =>
      have := create_part hc hw [] b (by simp)
      simp only [indices, List.append_nil] at this
      rw [ho] at this
      simp only [walk, List.foldlM_nil, List.getElem?_cons_zero]
      exact this
  | succ k ih =>
    obtain ⟨js, i, rfl⟩ : ∃ js i, is = js ++ [i] := by
      rcases List.eq_nil_or_concat is with rfl | ⟨js, i, rfl⟩
      · simp at hk
      · exact ⟨js, i, by simp⟩
    have hjl : js.length = k := by simpa using hk
    have hlt : js.length < rs.length := by simp at hl; omega
    obtain ⟨b, hb⟩ : ∃ b, rs[js.length]? = some b := ⟨_, List.getElem?_eq_getElem hlt⟩
    obtain ⟨ih1, ih2⟩ := ih js (fun i hi' => hi i (by simp [hi'])) (by omega) hjl
    have hwk : walk c V o (js ++ [i]) = (walk c V o js).bind fun o => vpiByIndex c V 0 i o := by
      unfold walk
      rw [List.foldlM_append]
      simp
    rw [← hjl] at ih1 ⊢
    rw [within_snoc, hwk]
    constructor
    · rintro ⟨h1, b', hb', h2⟩
      rw [hb] at hb'
      cases hb'
      rw [ih1 h1, hb, Option.bind_some, step_part hc hw js b hb i (hi i (by simp)), if_pos h2]
    · intro hn
      by_cases h1 : Within js rs
      · rw [ih1 h1, hb, Option.bind_some, step_part hc hw js b hb i (hi i (by simp)), if_neg]
        exact fun h2 => hn ⟨h1, b, hb, h2⟩
      · rw [ih2 h1]
        rfl

end GpiArray

/-- **C147** An array with any number of dimensions can be indexed one dimension at a time in a simulator that has no objects for parts of
arrays (Questa, VCS): after fewer indices than dimensions there is a handle, with the bounds and the number of elements of the next
dimension. -/
theorem C147_part {c : Flavor} (hc : c.rangesFromFirst = true) {V : Vpi} {h : H} {n full : Text} {rs : List (Int × Int)} (hw : Whole V h n full rs)
    (o : Obj) (ho : createObj c V 0 h n full = some o) (is : List Int) (hi : ∀ i ∈ is, isInt32 i = true) (b : Int × Int)
    (hb : rs[is.length]? = some b) (hin : Within is rs) :
    ∃ p, walk c V o is = some p ∧ p.type = .array ∧ p.name = n ++ indices is ∧ p.full = full ++ indices is ∧ (p.left, p.right) = b ∧
      p.numElems = ((b.1 - b.2).natAbs : Int) + 1 ∧ (p.dir = .down ↔ b.1 > b.2) ∧ (p.dir = .up ↔ b.1 ≤ b.2) ∧ p.indexable = true := by
  have hlt : is.length < rs.length := by
    rw [List.getElem?_eq_some_iff] at hb
    exact hb.1
  have := (walk_part hc hw o ho is hi (by omega) (by intro e; simp [e] at hlt)).1 hin
  rw [hb] at this
  refine ⟨_, this, rfl, rfl, rfl, rfl, ?_, ?_, ?_, rfl⟩
  · simp only [part]; split <;> omega
  · simp only [part]; split <;> simp <;> omega
  · simp only [part]; split <;> simp <;> omega

/-- **C147** With an index for each dimension there is the object the simulator has for all of them together, and nothing if it has none. -/
theorem C147_element {c : Flavor} (hc : c.rangesFromFirst = true) {V : Vpi} {h : H} {n full : Text} {rs : List (Int × Int)} (hw : Whole V h n full rs)
    (o : Obj) (ho : createObj c V 0 h n full = some o) (is : List Int) (hi : ∀ i ∈ is, isInt32 i = true)
    (hl : is.length = rs.length) (hne : is ≠ []) (hin : Within is rs) :
    walk c V o is = (V.byName (full ++ indices is)).bind fun h' => createObj c V 0 h' (n ++ indices is) (full ++ indices is) := by
  have := (walk_part hc hw o ho is hi (by omega) (by intro e; subst e; exact hne (List.length_eq_zero_iff.mp hl))).1 hin
  rwa [hl, List.getElem?_eq_none (Nat.le_refl _)] at this

/-- **C147** If an index is outside of the bounds of its dimension there is nothing. -/
theorem C147_outside {c : Flavor} (hc : c.rangesFromFirst = true) {V : Vpi} {h : H} {n full : Text} {rs : List (Int × Int)} (hw : Whole V h n full rs)
    (o : Obj) (ho : createObj c V 0 h n full = some o) (is : List Int) (hi : ∀ i ∈ is, isInt32 i = true)
    (hl : is.length ≤ rs.length) (hne : rs ≠ []) (hout : ¬ Within is rs) : walk c V o is = none :=
  (walk_part hc hw o ho is hi hl hne).2 hout

/-- `logic x [1:0][2:7]`, of which the simulator knows `top.x` and `top.x[1][3]`. -/
def gridVpi : Vpi :=
  { noVpi with
    type := fun h => if h = 0 then some .regArray else if h = 1 then some .reg else none
    name := fun h => if h = 0 then some (nm "x") else none
    byName := fun t => if t = nm "top.x[1][3]" then some 1 else none
    size := fun _ => 1
    ranges := fun h => if h = 0 then some [(1, 0), (2, 7)] else none }

theorem gridVpi_whole : Whole gridVpi 0 (nm "x") (nm "top.x") [(1, 0), (2, 7)] where
  type := ⟨.regArray, by simp, rfl⟩
  name := rfl
  ranges := rfl
  noIndex := fun _ => rfl
  noParts := by
    intro is h1 h2
    show (if nm "top.x" ++ indices is = nm "top.x[1][3]" then some 1 else none) = none
    rw [if_neg]
    intro e
    have := congrArg (List.count 91) e
    rw [List.count_append, indices_count is 91 (.inl rfl)] at this
    have e1 : (nm "top.x").count 91 = 0 := by decide
    have e2 : (nm "top.x[1][3]").count 91 = 2 := by decide
    simp at h1
    omega
  ident := ⟨120, [], rfl, by decide, by decide, by decide, by decide⟩

/-- `x[1]` has the bounds 2 and 7, `x[1][3]` is the signal, `x[0][3]` is not known, `x[1][8]` and `x[2]` are outside. -/
example : let c : Flavor := ⟨false, true⟩
    ∃ o, createObj c gridVpi 0 0 (nm "x") (nm "top.x") = some o ∧ (walk c gridVpi o [1]).map (fun p => (p.left, p.right)) = some (2, 7) ∧
      (walk c gridVpi o [1, 3]).map (·.full) = some (nm "top.x[1][3]") ∧ walk c gridVpi o [0, 3] = none ∧ walk c gridVpi o [1, 8] = none ∧
      walk c gridVpi o [2] = none ∧ Within [1, 3] [(1, 0), (2, 7)] :=
  ⟨_, rfl, by decide +kernel, by decide +kernel, by decide +kernel, by decide +kernel, by decide +kernel, by simp [Within]⟩

end Verif
