import Verif.Spec.Gpi
/-!
# Paths and their texts
-/
namespace Verif.Gpi

theorem decText_digit {n c : Nat} (h : c ∈ decText n) : 48 ≤ c ∧ c ≤ 57 := by
  unfold decText ofStr at h
  rw [List.mem_map] at h
  obtain ⟨ch, hm, rfl⟩ := h
  obtain ⟨d, hd, rfl⟩ := decStr_digits n ch hm
  have : ∀ d < 10, 48 ≤ (decChar d).toNat ∧ (decChar d).toNat ≤ 57 := by decide
  exact this d hd

theorem decText_inj {m n : Nat} (h : decText m = decText n) : m = n := decStr_inj (ofStr_inj h)

theorem decInt_chars {i : Int} {c : Nat} (h : c ∈ decInt i) : c = 45 ∨ (48 ≤ c ∧ c ≤ 57) := by
  unfold decInt at h
  split at h
  · rcases List.mem_cons.mp h with rfl | h
    · exact Or.inl rfl
    · exact Or.inr (decText_digit h)
  · exact Or.inr (decText_digit h)

theorem decText_ne (n : Nat) : decText n ≠ [] := by
  unfold decText ofStr
  simpa using decStr_ne_nil n

theorem decInt_inj {i j : Int} (h : decInt i = decInt j) : i = j := by
  have nd : ∀ {n m : Nat}, 45 :: decText n = decText m → False := by
    intro n m e
    have := decText_digit (n := m) (c := 45) (by rw [← e]; exact List.mem_cons_self)
    omega
  unfold decInt at h
  split at h <;> split at h
  · have := decText_inj (List.cons.inj h).2; omega
  · exact (nd h).elim
  · exact (nd h.symm).elim
  · have := decText_inj h; omega

theorem decStr_length (n k : Nat) (h : n < 10 ^ (k + 1)) : (decStr n).length ≤ k + 1 := by
  induction k generalizing n with
  | zero => unfold decStr; rw [if_pos (by simpa using h)]; simp
  | succ k ih =>
    unfold decStr
    split
    · simp
    · have : n / 10 < 10 ^ (k + 1) := by rw [Nat.pow_succ] at h; omega
      have := ih _ this
      simp; omega

/-- The buffer is large enough for every index that can be passed. -/
theorem idxText_eq {i : Int} (h : isInt32 i = true) : idxText i = lbr :: (decInt i ++ [93]) := by
  unfold idxText
  rw [List.take_of_length_le]
  have hn : i.natAbs < 10 ^ (9 + 1) := by
    unfold isInt32 at h; simp at h; omega
  have := decStr_length _ _ hn
  unfold decInt decText ofStr
  split <;> simp <;> omega

theorem decInt_no {i : Int} {c : Nat} (h : c = 46 ∨ c = 91 ∨ c = 93 ∨ c = 58) : c ∉ decInt i := by
  intro hm
  have := decInt_chars hm
  omega

/-- Cutting at the last separator. -/
theorem cut_inj (P : Nat → Prop) {a b n m : Text} {s t : Nat} (hn : ∀ c ∈ n, ¬ P c) (hm : ∀ c ∈ m, ¬ P c)
    (hs : P s) (ht : P t) (h : a ++ s :: n = b ++ t :: m) : a = b ∧ s = t ∧ n = m := by
  induction a generalizing b with
  | nil =>
    cases b with
    | nil => simp at h; exact ⟨rfl, h⟩
    | cons x b =>
      simp only [List.nil_append, List.cons_append, List.cons.injEq] at h
      exact absurd ht (hn t (by rw [h.2]; simp))
  | cons x a ih =>
    cases b with
    | nil =>
      simp only [List.nil_append, List.cons_append, List.cons.injEq] at h
      exact absurd hs (hm s (by rw [← h.2]; simp))
    | cons y b =>
      simp only [List.cons_append, List.cons.injEq] at h
      obtain ⟨rfl, h⟩ := h
      obtain ⟨rfl, h'⟩ := ih h
      exact ⟨rfl, h'⟩

theorem Simple.no {n : Text} (h : Simple n) : ∀ c ∈ n, ¬ (c = 46 ∨ c = 58) := by
  intro c hc
  have := h.2 c hc
  omega

theorem Simple.last {n a : Text} (h : Simple n) {b : Text} {x : Nat} (hx : x = 93 ∨ x = 58) : a ++ n ≠ b ++ [x] := by
  intro e
  obtain ⟨hne, hc⟩ := h
  have h1 : (a ++ n).getLast? = some x := by rw [e]; simp
  rw [List.getLast?_append] at h1
  rcases hn : n.getLast? with _ | y
  · rw [List.getLast?_eq_none_iff] at hn; exact hne hn
  · rw [hn] at h1
    simp at h1
    have := hc y (List.mem_of_getLast? hn)
    omega

/-- The text of a child: what comes before the name ends with a separator. -/
theorem child_text (p : Path) (n : Text) :
    ∃ a s, (s = 46 ∨ s = 58) ∧ (Path.child p n).text = a ++ s :: n ∧
      (s = 58 → ∃ m, p = .package m ∧ a = m ++ [58]) ∧ (s = 46 → p.isPackage = false ∧ a = p.text) := by
  cases p with
  | package m =>
    exact ⟨m ++ [58], 58, Or.inr rfl, by simp [Path.text, Path.isPackage], fun _ => ⟨m, rfl, rfl⟩, by omega⟩
  | root m => exact ⟨(Path.root m).text, 46, Or.inl rfl, by simp [Path.text, Path.isPackage, dot], by omega, fun _ => ⟨rfl, rfl⟩⟩
  | child q m =>
    exact ⟨(Path.child q m).text, 46, Or.inl rfl, by simp [Path.text, Path.isPackage, dot], by omega, fun _ => ⟨rfl, rfl⟩⟩
  | elem q i =>
    exact ⟨(Path.elem q i).text, 46, Or.inl rfl, by simp [Path.text, Path.isPackage, dot], by omega, fun _ => ⟨rfl, rfl⟩⟩

/-- A path can be read off its text. -/
theorem Path.text_inj : ∀ {p q : Path}, p.Ok → q.Ok → p.text = q.text → p = q := by
  intro p
  induction p with
  | root n =>
    intro q hp hq h
    cases q with
    | root m => simp [Path.text] at h; rw [h]
    | package m => exact absurd (by rw [Path.text, Path.text] at h; simpa using h) (hp.last (a := []) (b := m ++ [58]) (x := 58) (Or.inr rfl))
    | child q m =>
      obtain ⟨a, s, hs, e, _⟩ := child_text q m
      rw [e] at h
      exact absurd hs (hp.no s (by rw [Path.text] at h; rw [h]; simp))
    | elem q i =>
      exact absurd (by rw [Path.text, Path.text] at h; simpa using h) (hp.last (a := []) (b := q.text ++ lbr :: decInt i) (x := 93) (Or.inl rfl))
  | package n =>
    intro q hp hq h
    cases q with
    | root m => exact absurd (by rw [Path.text, Path.text] at h; simpa using h.symm) (hq.last (a := []) (b := n ++ [58]) (x := 58) (Or.inr rfl))
    | package m => simp [Path.text] at h; rw [h]
    | child q m =>
      obtain ⟨a, s, hs, e, _⟩ := child_text q m
      rw [e] at h
      exact absurd (by rw [Path.text] at h; simpa using h.symm) (hq.2.last (a := a ++ [s]) (b := n ++ [58]) (x := 58) (Or.inr rfl))
    | elem q i =>
      rw [Path.text, Path.text] at h
      have h1 : (n ++ [58, 58]).getLast? = some 58 := by simp
      rw [h] at h1
      have : q.text ++ lbr :: (decInt i ++ [93]) = (q.text ++ lbr :: decInt i) ++ [93] := by simp
      rw [this, List.getLast?_append] at h1
      simp at h1
  | child p n ih =>
    intro q hp hq h
    obtain ⟨a, s, hs, e, h1, h2⟩ := child_text p n
    cases q with
    | root m =>
      rw [e] at h
      exact absurd hs (hq.no s (by rw [Path.text] at h; rw [← h]; simp))
    | package m =>
      rw [e] at h
      exact absurd (by rw [Path.text] at h; simpa using h) (hp.2.last (a := a ++ [s]) (b := m ++ [58]) (x := 58) (Or.inr rfl))
    | child q m =>
      obtain ⟨b, t, ht, e', h1', h2'⟩ := child_text q m
      rw [e, e'] at h
      obtain ⟨rfl, rfl, rfl⟩ := cut_inj (fun c => c = 46 ∨ c = 58) hp.2.no hq.2.no hs ht h
      rcases hs with rfl | rfl
      · obtain ⟨_, rfl⟩ := h2 rfl
        obtain ⟨_, e2⟩ := h2' rfl
        rw [ih hp.1 hq.1 e2]
      · obtain ⟨m1, rfl, rfl⟩ := h1 rfl
        obtain ⟨m2, rfl, e2⟩ := h1' rfl
        simp at e2
        rw [e2]
    | elem q i =>
      rw [e] at h
      exact absurd (by rw [Path.text] at h; simpa using h) (hp.2.last (a := a ++ [s]) (b := q.text ++ lbr :: decInt i) (x := 93) (Or.inl rfl))
  | elem p i ih =>
    intro q hp hq h
    cases q with
    | root m => exact absurd (by rw [Path.text, Path.text] at h; simpa using h.symm) (hq.last (a := []) (b := p.text ++ lbr :: decInt i) (x := 93) (Or.inl rfl))
    | package m =>
      rw [Path.text, Path.text] at h
      have h1 : (m ++ [58, 58]).getLast? = some 58 := by simp
      rw [← h] at h1
      have : p.text ++ lbr :: (decInt i ++ [93]) = (p.text ++ lbr :: decInt i) ++ [93] := by simp
      rw [this, List.getLast?_append] at h1
      simp at h1
    | child q m =>
      obtain ⟨a, s, hs, e, _⟩ := child_text q m
      rw [e] at h
      exact absurd (by rw [Path.text] at h; simpa using h.symm) (hq.2.last (a := a ++ [s]) (b := p.text ++ lbr :: decInt i) (x := 93) (Or.inl rfl))
    | elem q j =>
      rw [Path.text, Path.text] at h
      have no : ∀ k : Int, ∀ c ∈ decInt k ++ [93], ¬ c = 91 := by
        intro k c hc e
        subst e
        simp only [List.mem_append, List.mem_singleton] at hc
        rcases hc with hc | hc
        · exact decInt_no (by omega) hc
        · omega
      obtain ⟨e1, _, e2⟩ := cut_inj (fun c => c = 91) (no i) (no j) rfl rfl h
      rw [ih hp.1 hq.1 e1, decInt_inj (List.append_cancel_right e2)]

end Verif.Gpi
