import Verif.Spec.Runner
/-!
# Lemmas: literals and patterns of the runner
-/
namespace Verif.Runner

theorem hexDigit_hexLower (d : Nat) (h : d < 16) : hexDigit (hexLower d) = some d := by
  unfold hexDigit hexLower
  split
  · rw [if_pos (by omega)]; congr 1; omega
  · rw [if_neg (by omega), if_neg (by omega), if_pos (by omega)]; congr 1; omega

theorem svStringGo_escape (c : Nat) (r : Text) :
    svStringGo 0 (svEscapeChar c ++ r) = (svStringGo 0 r).map (c :: ·) := by
  unfold svEscapeChar
  split
  · subst_vars; rfl
  split
  · subst_vars; rfl
  split
  · subst_vars; rfl
  split
  · subst_vars; rfl
  split
  · subst_vars; rfl
  split
  · subst_vars; rfl
  split
  · subst_vars; rfl
  split
  · have h1 := hexDigit_hexLower (c / 16) (by omega)
    have h2 := hexDigit_hexLower (c % 16) (by omega)
    simp [svStringGo, svEscape, h1, h2]
    congr 1
    funext t
    rw [show 16 * (c / 16) + c % 16 = c by omega]
  · rename_i h1 h2 h3
    simp_all [svStringGo]
    omega

theorem svString_escape (v : Text) : svString (svEscapeString v) = some v := by
  have key : ∀ v : Text, svStringGo 0 (v.flatMap svEscapeChar ++ [34]) = some v := by
    intro v
    induction v with
    | nil => rfl
    | cons c v ih => rw [List.flatMap_cons, List.append_assoc, svStringGo_escape, ih]; rfl
  exact key v

theorem vhdlString_escape (v : Text) (h : ∀ c ∈ v, graphic c = true) :
    vhdlStringGo ((v.flatMap fun c => if c = 34 then [34, 34] else [c]) ++ [34]) = some v := by
  induction v with
  | nil => rfl
  | cons c v ih =>
    have ih := ih fun c hc => h c (List.mem_cons_of_mem _ hc)
    have hc := h c List.mem_cons_self
    rw [List.flatMap_cons, List.append_assoc]
    by_cases e : c = 34
    · subst e
      rw [if_pos rfl]
      simp only [List.cons_append, List.nil_append]
      rw [vhdlStringGo, ih]
      rfl
    · rw [if_neg e]
      simp only [List.cons_append, List.nil_append]
      rw [vhdlStringGo]
      · rw [if_pos hc, ih]; rfl
      · omega

theorem replaceGo_single (a : Nat) (new s : Text) :
    replaceGo [a] new 0 s = s.flatMap fun c => if c = a then new else [c] := by
  induction s with
  | nil => rfl
  | cons c s ih =>
    rw [replaceGo]
    by_cases e : c = a
    · subst e; simp [ih]
    · rw [if_neg (by simp [List.isPrefixOf]; exact fun h => e h.symm), ih]; simp [e]

/-- What `_as_tcl_value` makes of one character. -/
def tclChar (c : Nat) : Text :=
  if tclMagic c then [92, c] else if c = 10 then [92, 110] else if tclSpace c then [92, c] else [c]

theorem asTcl_body (v : Text) :
    ((replaceText [10] [92, 110] (v.flatMap fun c => if tclMagic c then [92, c] else [c])).flatMap
      fun c => if tclSpace c then [92, c] else [c]) = v.flatMap tclChar := by
  unfold replaceText
  rw [replaceGo_single]
  induction v with
  | nil => rfl
  | cons c v ih =>
    simp only [List.flatMap_cons, List.flatMap_append] at ih ⊢
    rw [ih]
    congr 1
    unfold tclChar
    by_cases h1 : tclMagic c = true
    · have : c ≠ 10 ∧ tclSpace c = false := by simp [tclMagic] at h1; simp [tclSpace]; omega
      have h3 : tclSpace 92 = false := by decide
      simp [h1, this, h3]
    · by_cases h2 : c = 10
      · subst h2; simp [tclMagic, tclSpace]
      · simp [h1, h2]

theorem tclBare_char (c : Nat) (h : c ≠ 36 ∧ c ≠ 91 ∧ c ≠ 59) (r : Text) :
    tclBare (tclChar c ++ r) = (tclBare r).map (c :: ·) := by
  unfold tclChar
  split
  · rename_i h1
    simp [tclMagic] at h1
    rcases h1 with (rfl | rfl) | rfl <;> rfl
  split
  · subst_vars; rfl
  split
  · rename_i h2 h1
    simp [tclSpace] at h1
    simp only [List.cons_append, List.nil_append]
    rw [tclBare]
    have : tclEscape c = some c := by
      unfold tclEscape
      rw [if_neg (by omega), if_neg (by omega), if_neg (by omega), if_neg (by omega), if_neg (by omega),
        if_neg (by omega), if_neg (by omega), if_neg (by omega)]
    rw [this]
  · rename_i h1 h2 h3
    simp [tclMagic] at h1
    simp [tclSpace] at h3
    simp only [List.cons_append, List.nil_append]
    rw [tclBare]
    · rw [if_neg (by omega)]
    · omega
    · omega

theorem tclBare_value (v : Text) (h : ∀ c ∈ v, c ≠ 36 ∧ c ≠ 91 ∧ c ≠ 59) :
    tclBare (v.flatMap tclChar) = some v := by
  induction v with
  | nil => rfl
  | cons c v ih =>
    rw [List.flatMap_cons, tclBare_char c (h c List.mem_cons_self), ih fun c hc => h c (List.mem_cons_of_mem _ hc)]
    rfl

theorem tclWord_value (v : Text) (hv : v ≠ []) (h : ∀ c ∈ v, c ≠ 36 ∧ c ≠ 91 ∧ c ≠ 59) :
    tclWord (asTclValue v) = some v := by
  unfold asTclValue
  simp only [asTcl_body]
  have hb := tclBare_value v h
  cases v with
  | nil => exact absurd rfl hv
  | cons c v =>
    by_cases e : c = 34
    · subst e
      have : tclChar 34 = [34] := by decide
      rw [List.flatMap_cons, this] at hb ⊢
      rw [if_pos (by rfl)]
      unfold tclWord
      rw [if_neg (by simp)]
      have hq : ∀ r, tclBare (92 :: 34 :: r) = (tclBare r).map (34 :: ·) := fun r => rfl
      simp only [List.cons_append, List.nil_append]
      rw [hq, tclBare_value v fun c hc => h c (List.mem_cons_of_mem _ hc)]
      rfl
    · have hh : (List.flatMap tclChar (c :: v)).head? ≠ some 34 ∧ (List.flatMap tclChar (c :: v)).head? ≠ some 123 ∧
          List.flatMap tclChar (c :: v) ≠ [] := by
        rw [List.flatMap_cons]
        unfold tclChar tclMagic
        split
        · simp
        split
        · simp
        split
        · simp
        · simp_all
      rw [if_neg hh.1]
      unfold tclWord
      rw [if_neg (by rintro (h | h | h) <;> simp_all)]
      exact hb

theorem map_ofNat_ofStr (s : PyStr) : (ofStr s).map Char.ofNat = s := by
  unfold ofStr
  rw [List.map_map, show (Char.ofNat ∘ Char.toNat) = id from funext fun c => by simp, List.map_id]

theorem decText_digit {n c : Nat} (h : c ∈ decText n) : 48 ≤ c ∧ c ≤ 57 := by
  unfold decText ofStr at h
  rw [List.mem_map] at h
  obtain ⟨ch, hm, rfl⟩ := h
  obtain ⟨d, hd, rfl⟩ := decStr_digits n ch hm
  have : ∀ d < 10, 48 ≤ (decChar d).toNat ∧ (decChar d).toNat ≤ 57 := by decide
  exact this d hd

theorem decText_ne_nil (n : Nat) : decText n ≠ [] := by
  unfold decText ofStr
  simpa using decStr_ne_nil n

theorem strInt_eq (i : Int) : strInt i = if i < 0 then 45 :: decText i.natAbs else decText i.natAbs := by
  unfold strInt intStr decText
  split <;> rfl

theorem decimal_strInt (i : Int) : decimal (strInt i) = some i := by
  rw [strInt_eq]
  have hp : parseDec ((decText i.natAbs).map Char.ofNat) = some i.natAbs := by
    unfold decText; rw [map_ofNat_ofStr, parseDec_decStr]
  by_cases h : i < 0
  · rw [if_pos h, decimal, hp]
    simp; omega
  · rw [if_neg h]
    rcases e : decText i.natAbs with _ | ⟨c, cs⟩
    · exact absurd e (decText_ne_nil _)
    · have := decText_digit (n := i.natAbs) (c := c) (by rw [e]; exact List.mem_cons_self)
      rw [decimal]
      · rw [← e, hp]; simp; omega
      · intro ds h'; rw [List.cons.injEq] at h'; omega

theorem strInt_chars {i : Int} {c : Nat} (h : c ∈ strInt i) : c = 45 ∨ (48 ≤ c ∧ c ≤ 57) := by
  rw [strInt_eq] at h
  split at h
  · rcases List.mem_cons.mp h with rfl | h
    · exact Or.inl rfl
    · exact Or.inr (decText_digit h)
  · exact Or.inr (decText_digit h)

theorem strInt_ne_nil (i : Int) : strInt i ≠ [] := by
  rw [strInt_eq]; split
  · simp
  · exact decText_ne_nil _

theorem takeWhile_stop {α : Type} (p : α → Bool) (l : List α) (x : α) (r : List α) (hl : ∀ y ∈ l, p y = true)
    (hx : p x = false) : (l ++ x :: r).takeWhile p = l := by
  induction l with
  | nil => simp [hx]
  | cons y l ih =>
    rw [List.cons_append, List.takeWhile_cons, if_pos (hl y List.mem_cons_self),
      ih fun y hy => hl y (List.mem_cons_of_mem _ hy)]

theorem dropWhile_stop {α : Type} (p : α → Bool) (l : List α) (x : α) (r : List α) (hl : ∀ y ∈ l, p y = true)
    (hx : p x = false) : (l ++ x :: r).dropWhile p = x :: r := by
  induction l with
  | nil => simp [hx]
  | cons y l ih =>
    rw [List.cons_append, List.dropWhile_cons, if_pos (hl y List.mem_cons_self),
      ih fun y hy => hl y (List.mem_cons_of_mem _ hy)]

theorem svLiteral_bits (cs : Text) (hn : cs ≠ []) (hc : ∀ c ∈ cs, c ∈ lit "01XZ") :
    svLiteral (decText cs.length ++ lit "'b" ++ cs) = some (.bits cs) := by
  have e : decText cs.length ++ lit "'b" ++ cs = decText cs.length ++ 39 :: 98 :: cs := by
    rw [List.append_assoc]; rfl
  rw [e]
  have hd : ∀ y ∈ decText cs.length, (y != 39) = true := by
    intro y hy; have := decText_digit hy; simp; omega
  unfold svLiteral
  rw [if_neg, if_pos (by simp)]
  · rw [takeWhile_stop _ _ _ _ hd (by rfl), dropWhile_stop _ _ _ _ hd (by rfl)]
    simp only [List.drop_succ_cons, List.drop_zero]
    have hp : parseDec ((decText cs.length).map Char.ofNat) = some cs.length := by
      unfold decText; rw [map_ofNat_ofStr, parseDec_decStr]
    rw [hp]
    simp only
    rw [if_pos]
    refine ⟨List.length_pos_iff.mpr hn, trivial, ?_⟩
    rw [List.all_eq_true]
    intro c h
    have := hc c h
    have hl : lit "01XZ" = [48, 49, 88, 90] := by decide
    have hl' : lit "01xXzZ" = [48, 49, 120, 88, 122, 90] := by decide
    rw [hl] at this
    rw [hl']
    simp at this ⊢
    omega
  · rcases e : decText cs.length with _ | ⟨c, ds⟩
    · exact absurd e (decText_ne_nil _)
    · have := decText_digit (n := cs.length) (c := c) (by rw [e]; exact List.mem_cons_self)
      simp; omega

theorem svLiteral_int (i : Int) : svLiteral (strInt i) = some (.number i) := by
  unfold svLiteral
  rw [if_neg, if_neg, decimal_strInt]
  · rfl
  · intro h; have := strInt_chars h; omega
  · intro h
    have : (34 : Nat) ∈ strInt i := List.mem_of_mem_head? h
    have := strInt_chars this; omega

theorem svLiteral_string (t : Text) : svLiteral (svEscapeString t) = some (.string t) := by
  unfold svLiteral
  rw [if_pos (by rfl), svString_escape]
  rfl

theorem vhdlLiteral_int (i : Int) : vhdlLiteral (strInt i) = some (.number i) := by
  have hl : lit "true" = [116, 114, 117, 101] := by decide
  have hl' : lit "false" = [102, 97, 108, 115, 101] := by decide
  have h0 : ∀ c ∈ strInt i, c = 45 ∨ (48 ≤ c ∧ c ≤ 57) := fun c h => strInt_chars h
  have hd := decimal_strInt i
  revert h0 hd
  generalize strInt i = t
  intro h0 hd
  unfold vhdlLiteral
  rw [if_neg, if_neg]
  · split
    · have := h0 34 List.mem_cons_self; omega
    · rw [hd]; rfl
  · rintro rfl; have := h0 102 (by rw [hl']; exact List.mem_cons_self); omega
  · rintro rfl; have := h0 116 (by rw [hl]; exact List.mem_cons_self); omega

theorem vhdlLiteral_string (t : Text) (h : ∀ c ∈ t, graphic c = true) :
    vhdlLiteral (vhdlEscapeString t) = some (.string t) := by
  have hl : lit "true" = [116, 114, 117, 101] := by decide
  have hl' : lit "false" = [102, 97, 108, 115, 101] := by decide
  unfold vhdlLiteral vhdlEscapeString
  rw [if_neg (by rw [hl]; simp), if_neg (by rw [hl']; simp)]
  simp only [List.cons_append]
  rw [vhdlString_escape t h]
  rfl

end Verif.Runner
