import Verif.Spec.PytestId
/-!
# Reading mangled node ids
-/
namespace Verif.PytestId

/-! ## Joined texts -/

theorem joinWith_cons (sep t : Text) {ts : List Text} (h : ts ≠ []) : joinWith sep (t :: ts) = t ++ sep ++ joinWith sep ts := by
  cases ts with
  | nil => exact absurd rfl h
  | cons a l => rfl

theorem joinWith_cons2 (sep t u : Text) (ts : List Text) :
    joinWith sep (t :: u :: ts) = t ++ sep ++ joinWith sep (u :: ts) := rfl

theorem joinWith_append (sep : Text) {a b : List Text} (ha : a ≠ []) (hb : b ≠ []) :
    joinWith sep (a ++ b) = joinWith sep a ++ sep ++ joinWith sep b := by
  induction a with
  | nil => exact absurd rfl ha
  | cons t ts ih =>
    cases ts with
    | nil => exact joinWith_cons sep t hb
    | cons u us =>
      have e := ih (by simp)
      rw [List.cons_append, joinWith_cons sep t (by simp), e, joinWith_cons sep t (by simp)]
      simp

theorem takeWhile_until {s : Nat} {a b : Text} (h : s ∉ a) : (a ++ s :: b).takeWhile (· != s) = a := by
  induction a with
  | nil => simp
  | cons c a ih =>
    have hc : c ≠ s := fun e => h (by simp [e])
    have := ih fun hm => h (List.mem_cons_of_mem _ hm)
    simp [hc, this]

theorem takeWhile_all {s : Nat} {a : Text} (h : s ∉ a) : a.takeWhile (· != s) = a := by
  induction a with
  | nil => rfl
  | cons c a ih =>
    have hc : c ≠ s := fun e => h (by simp [e])
    simp [hc, ih fun hm => h (List.mem_cons_of_mem _ hm)]

theorem dropWhile_until {s : Nat} {a b : Text} (h : s ∉ a) : (a ++ s :: b).dropWhile (· != s) = s :: b := by
  induction a with
  | nil => simp
  | cons c a ih =>
    have hc : c ≠ s := fun e => h (by simp [e])
    have := ih fun hm => h (List.mem_cons_of_mem _ hm)
    simp [hc, this]

theorem dropWhile_all {s : Nat} {a : Text} (h : s ∉ a) : a.dropWhile (· != s) = [] := by
  induction a with
  | nil => rfl
  | cons c a ih =>
    have hc : c ≠ s := fun e => h (by simp [e])
    simp [hc, ih fun hm => h (List.mem_cons_of_mem _ hm)]

/-- Parts joined by a character that is in none of them can be told apart. -/
theorem joinWith_inj {s : Nat} {l l' : List Text} (h : ∀ t ∈ l, s ∉ t) (h' : ∀ t ∈ l', s ∉ t) (hn : l ≠ []) (hn' : l' ≠ [])
    (e : joinWith [s] l = joinWith [s] l') : l = l' := by
  induction l generalizing l' with
  | nil => exact absurd rfl hn
  | cons a l ih =>
    cases l' with
    | nil => exact absurd rfl hn'
    | cons a' l' =>
      have ha := h a (List.mem_cons_self ..)
      have ha' := h' a' (List.mem_cons_self ..)
      cases l with
      | nil =>
        cases l' with
        | nil => rw [show a = a' from e]
        | cons b' l' =>
          have e' : a = a' ++ s :: joinWith [s] (b' :: l') := by simpa [joinWith] using e
          exact absurd (by rw [e']; simp) ha
      | cons b l =>
        cases l' with
        | nil =>
          have e' : a' = a ++ s :: joinWith [s] (b :: l) := by simpa [joinWith] using e.symm
          exact absurd (by rw [e']; simp) ha'
        | cons b' l' =>
          have e' : a ++ s :: joinWith [s] (b :: l) = a' ++ s :: joinWith [s] (b' :: l') := by simpa [joinWith] using e
          have e1 : a = a' := by
            have := congrArg (List.takeWhile (· != s)) e'
            rwa [takeWhile_until ha, takeWhile_until ha'] at this
          subst e1
          have e2 : joinWith [s] (b :: l) = joinWith [s] (b' :: l') := by simpa using e'
          rw [ih (fun t ht => h t (List.mem_cons_of_mem _ ht)) (fun t ht => h' t (List.mem_cons_of_mem _ ht)) (by simp)
            (by simp) e2]

/-! ## `::` -/

theorem partition2_cons {c : Nat} {t : Text} (h : ¬ (c = 58 ∧ t.head? = some 58)) :
    partition2 (c :: t) = (c :: (partition2 t).1, (partition2 t).2) := by
  rw [partition2]
  rintro t' rfl rfl
  exact h ⟨rfl, rfl⟩

theorem partition2_calm {a : Text} (h1 : ¬ [58, 58] <:+: a) (h2 : a.getLast? ≠ some 58) (b : Text) :
    partition2 (a ++ [58, 58] ++ b) = (a, b) := by
  induction a with
  | nil => rfl
  | cons c a ih =>
    have h1' : ¬ [58, 58] <:+: a := fun h => h1 (h.trans (List.infix_cons (List.infix_refl a)))
    have h2' : a.getLast? ≠ some 58 := by
      intro h
      apply h2
      cases a with
      | nil => cases h
      | cons d a => rw [List.getLast?_cons_cons]; exact h
    have ih := ih h1' h2'
    have hc : ¬ (c = 58 ∧ (a ++ [58, 58] ++ b).head? = some 58) := by
      rintro ⟨rfl, hh⟩
      cases a with
      | nil => exact h2 rfl
      | cons d a =>
        simp only [List.cons_append, List.head?_cons, Option.some.injEq] at hh
        subst hh
        exact h1 ⟨[], a, rfl⟩
    rw [List.cons_append, List.cons_append, partition2_cons hc, ih]

theorem partition2_alone {a : Text} (h1 : ¬ [58, 58] <:+: a) : partition2 a = (a, []) := by
  induction a with
  | nil => rfl
  | cons c a ih =>
    have h1' : ¬ [58, 58] <:+: a := fun h => h1 (h.trans (List.infix_cons (List.infix_refl a)))
    have hc : ¬ (c = 58 ∧ a.head? = some 58) := by
      rintro ⟨rfl, hh⟩
      cases a with
      | nil => cases hh
      | cons d a =>
        simp only [List.head?_cons, Option.some.injEq] at hh
        subst hh
        exact h1 ⟨[], a, rfl⟩
    rw [partition2_cons hc, ih h1']

theorem calm_of_no_colon {a : Text} (h0 : a ≠ []) (h : 58 ∉ a) : Calm a := by
  refine ⟨h0, fun hi => h (hi.subset (by simp)), fun hl => h (List.mem_of_getLast? hl)⟩

theorem Name.calm {t : Text} (h : Name t) : Calm t := calm_of_no_colon h.1 h.2.2.2

/-- Segments joined by `::` can be told apart. -/
theorem segments_inj {l l' : List Text} (h : ∀ t ∈ l, Calm t) (h' : ∀ t ∈ l', Calm t) (hn : l ≠ []) (hn' : l' ≠ [])
    (e : joinWith [58, 58] l = joinWith [58, 58] l') : l = l' := by
  induction l generalizing l' with
  | nil => exact absurd rfl hn
  | cons a l ih =>
    cases l' with
    | nil => exact absurd rfl hn'
    | cons a' l' =>
      have ha := h a (List.mem_cons_self ..)
      have ha' := h' a' (List.mem_cons_self ..)
      have ne : ∀ {b : Text} {m : List Text}, Calm b → joinWith [58, 58] (b :: m) ≠ [] := by
        intro b m hb hx
        cases m with
        | nil => exact hb.1 hx
        | cons c m => simp [joinWith, hb.1] at hx
      cases l with
      | nil =>
        cases l' with
        | nil => rw [show a = a' from e]
        | cons b' l' =>
          have e' := congrArg partition2 e
          rw [joinWith_cons2 _ a' b' l', partition2_calm ha'.2.1 ha'.2.2, show joinWith [58, 58] [a] = a from rfl,
            partition2_alone ha.2.1] at e'
          simp only [Prod.mk.injEq] at e'
          exact absurd e'.2.symm (ne (h' b' (by simp)))
      | cons b l =>
        cases l' with
        | nil =>
          have e' := congrArg partition2 e
          rw [joinWith_cons _ _ (by simp), partition2_calm ha.2.1 ha.2.2, show joinWith [58, 58] [a'] = a' from rfl,
            partition2_alone ha'.2.1] at e'
          simp only [Prod.mk.injEq] at e'
          exact absurd e'.2 (ne (h b (by simp)))
        | cons b' l' =>
          have e' := congrArg partition2 e
          rw [joinWith_cons2 _ a b l, partition2_calm ha.2.1 ha.2.2, joinWith_cons2 _ a' b' l',
            partition2_calm ha'.2.1 ha'.2.2] at e'
          simp only [Prod.mk.injEq] at e'
          rw [e'.1, ih (fun t ht => h t (List.mem_cons_of_mem _ ht)) (fun t ht => h' t (List.mem_cons_of_mem _ ht))
            (by simp) (by simp) e'.2]

/-! ## Paths -/

theorem mem_joinWith {sep : Text} {l : List Text} {c : Nat} (h : c ∈ joinWith sep l) :
    c ∈ sep ∨ ∃ t ∈ l, c ∈ t := by
  induction l with
  | nil => cases h
  | cons a l ih =>
    cases l with
    | nil => exact .inr ⟨a, by simp, h⟩
    | cons b l =>
      rw [joinWith_cons _ _ (by simp)] at h
      simp only [List.mem_append] at h
      rcases h with (h | h) | h
      · exact .inr ⟨a, by simp, h⟩
      · exact .inl h
      · rcases ih h with h | ⟨t, ht, hc⟩
        · exact .inl h
        · exact .inr ⟨t, List.mem_cons_of_mem _ ht, hc⟩

theorem NodeId.Ok.names {n : NodeId} (h : n.Ok) : ∀ t ∈ n.dirs ++ [n.file], Name t := by
  intro t ht
  rcases List.mem_append.mp ht with ht | ht
  · exact h.dirs t ht
  · rw [List.mem_singleton.mp ht]; exact h.file

theorem path_no_colon {n : NodeId} (h : n.Ok) : 58 ∉ n.path := by
  intro hm
  rcases List.mem_append.mp hm with hm | hm
  · rcases mem_joinWith hm with hm | ⟨t, ht, hm⟩
    · simp at hm
    · exact (h.names t ht).2.2.2 hm
  · simp [py] at hm

theorem path_calm {n : NodeId} (h : n.Ok) : Calm n.path :=
  calm_of_no_colon (by simp [NodeId.path, py]) (path_no_colon h)

theorem path_inj {n n' : NodeId} (h : n.Ok) (h' : n'.Ok) (e : n.path = n'.path) : n.dirs = n'.dirs ∧ n.file = n'.file := by
  have e := joinWith_inj (fun t ht => (h.names t ht).2.1) (fun t ht => (h'.names t ht).2.1) (by simp) (by simp)
    (List.append_cancel_right e)
  exact List.append_inj_left' e rfl |>.symm ▸ ⟨rfl, by simpa using List.append_inj_right' e rfl⟩

theorem partition2_text {n : NodeId} (h : n.Ok) : partition2 n.text = (n.path, n.function) :=
  partition2_calm (path_calm h).2.1 (path_calm h).2.2 _

theorem before_until {c : Nat} {a b : Text} (h : c ∉ b) : before c (a ++ c :: b) = a := by
  have e : (a ++ c :: b).reverse = b.reverse ++ c :: a.reverse := by simp
  rw [before, e, dropWhile_until (by simpa using h)]
  simp

theorem before_none {c : Nat} {b : Text} (h : c ∉ b) : before c b = [] := by
  rw [before, dropWhile_all (by simpa using h)]
  rfl

theorem after_until {c : Nat} {a b : Text} (h : c ∉ b) : after c (a ++ c :: b) = b := by
  have e : (a ++ c :: b).reverse = b.reverse ++ c :: a.reverse := by simp
  rw [after, e, takeWhile_until (by simpa using h)]
  simp

theorem before_path {n : NodeId} (h : n.Ok) : before 47 n.path = joinWith [47] n.dirs := by
  have hf : 47 ∉ n.file ++ py := by
    intro hm
    rcases List.mem_append.mp hm with hm | hm
    · exact h.file.2.1 hm
    · simp [py] at hm
  cases hd : n.dirs with
  | nil =>
    rw [NodeId.path, hd]
    exact before_none hf
  | cons d ds =>
    rw [NodeId.path, hd, joinWith_append _ (by simp) (by simp)]
    have : joinWith [47] (d :: ds) ++ [47] ++ joinWith [47] [n.file] ++ py = joinWith [47] (d :: ds) ++ 47 :: (n.file ++ py) := by
      simp [joinWith]
    rw [this]
    exact before_until hf

theorem removePrefix_append (p t : Text) : removePrefix p (p ++ t) = t := by simp [removePrefix]

theorem removeSuffix_append (p t : Text) : removeSuffix p (t ++ p) = t := by simp [removeSuffix]

theorem joinWith_ends {l : List Text} (h : ∀ t ∈ l, Name t) (hn : l ≠ []) :
    (∃ c t, joinWith [47] l = c :: t ∧ c ≠ 47) ∧ ∃ c t, joinWith [47] l = t ++ [c] ∧ c ≠ 47 := by
  constructor
  · cases l with
    | nil => exact absurd rfl hn
    | cons a l =>
      have ha := h a (List.mem_cons_self ..)
      cases a with
      | nil => exact absurd rfl ha.1
      | cons c a =>
        have hc : c ≠ 47 := fun e => ha.2.1 (by simp [e])
        cases l with
        | nil => exact ⟨c, a, rfl, hc⟩
        | cons b l => exact ⟨c, a ++ [47] ++ joinWith [47] (b :: l), by simp [joinWith], hc⟩
  · have hl := h _ (List.getLast_mem hn)
    have ha := (List.dropLast_concat_getLast hl.1).symm
    have hc : (l.getLast hn).getLast hl.1 ≠ 47 := fun e => hl.2.1 (by rw [← e]; exact List.getLast_mem _)
    refine ⟨(l.getLast hn).getLast hl.1, ?_⟩
    by_cases hd : l.dropLast = []
    · refine ⟨(l.getLast hn).dropLast, ?_, hc⟩
      conv => lhs; rw [← List.dropLast_concat_getLast hn, hd]
      exact ha
    · refine ⟨joinWith [47] l.dropLast ++ [47] ++ (l.getLast hn).dropLast, ?_, hc⟩
      conv => lhs; rw [← List.dropLast_concat_getLast hn, joinWith_append _ hd (by simp)]
      simp only [joinWith]
      conv => lhs; rw [ha]
      simp

theorem strip_clean {t : Text} (h1 : ∃ c s, t = c :: s ∧ c ≠ 47) (h2 : ∃ c s, t = s ++ [c] ∧ c ≠ 47) : stripSlash t = t := by
  obtain ⟨c, s, e, hc⟩ := h1
  obtain ⟨c', s', e', hc'⟩ := h2
  have d1 : t.dropWhile (· == 47) = t := by rw [e]; simp [hc]
  rw [stripSlash, d1, e']
  simp [hc']

theorem strip_slash {t : Text} (h1 : ∃ c s, t = c :: s ∧ c ≠ 47) (h2 : ∃ c s, t = s ++ [c] ∧ c ≠ 47) :
    stripSlash (47 :: t) = t := by
  have := strip_clean h1 h2
  rw [stripSlash] at this ⊢
  simpa using this

theorem map_dots {l : List Text} (h : ∀ t ∈ l, Name t) :
    (joinWith [47] l).map (fun c => if c = 47 then 46 else c) = joinWith [46] l := by
  have hm : ∀ t : Text, 47 ∉ t → t.map (fun c => if c = 47 then 46 else c) = t := by
    intro t ht
    conv => rhs; rw [← List.map_id t]
    refine List.map_congr_left fun c hc => ?_
    rw [if_neg (show c ≠ 47 from fun e => ht (e ▸ hc))]; rfl
  induction l with
  | nil => rfl
  | cons a l ih =>
    have ha := hm a (h a (List.mem_cons_self ..)).2.1
    cases l with
    | nil => exact ha
    | cons b l =>
      rw [joinWith_cons2 _ a b l, joinWith_cons2 _ a b l, List.map_append, List.map_append, ha,
        ih fun t ht => h t (List.mem_cons_of_mem _ ht)]
      rfl

/-- The dotted module name of a file in a directory of the runner's directory. -/
theorem module_name {r i : NodeId} (hi : i.Ok) {es : List Text} (he : i.dirs = r.dirs ++ es) :
    (stripSlash (removeSuffix py (removePrefix (joinWith [47] r.dirs) i.path))).map (fun c => if c = 47 then 46 else c) =
      joinWith [46] (es ++ [i.file]) := by
  have hn : ∀ t ∈ es ++ [i.file], Name t := by
    intro t ht
    refine hi.names t ?_
    rw [he, List.append_assoc]
    exact List.mem_append_right _ ht
  have hends := joinWith_ends hn (by simp)
  cases hr : r.dirs with
  | nil =>
    rw [hr, List.nil_append] at he
    have : removePrefix (joinWith [47] []) i.path = joinWith [47] (es ++ [i.file]) ++ py := by
      rw [NodeId.path, he]; exact removePrefix_append [] _
    rw [this, removeSuffix_append, strip_clean hends.1 hends.2, map_dots hn]
  | cons d ds =>
    rw [hr] at he
    have : removePrefix (joinWith [47] (d :: ds)) i.path = 47 :: joinWith [47] (es ++ [i.file]) ++ py := by
      rw [NodeId.path, he, List.append_assoc, joinWith_append _ (by simp) (by simp)]
      have : joinWith [47] (d :: ds) ++ [47] ++ joinWith [47] (es ++ [i.file]) ++ py =
          joinWith [47] (d :: ds) ++ (47 :: joinWith [47] (es ++ [i.file]) ++ py) := by simp
      rw [this, removePrefix_append]
    rw [this, removeSuffix_append, strip_slash hends.1 hends.2, map_dots hn]

/-- The segments of a mangled id. -/
theorem mangle_segments {r i : NodeId} (hr : r.Ok) (hi : i.Ok) (hs : Separate r i) :
    ∃ x : List Text, mangle r.text i.text =
        joinWith [58, 58] ((r.path :: r.classes ++ [r.func]) ++ (x ++ (i.classes ++ [i.func]))) ∧
      (∀ t ∈ x, Calm t) ∧
      ((x = [] ∧ i.dirs = r.dirs ∧ i.file = r.file) ∨
       (∃ es, i.dirs = r.dirs ++ es ∧ x = [joinWith [46] (es ++ [i.file])]) ∨
       (x = [i.path] ∧ ¬ r.dirs <+: i.dirs)) := by
  have e0 : r.text = joinWith [58, 58] (r.path :: r.classes ++ [r.func]) := by
    rw [List.cons_append, joinWith_cons _ _ (by simp)]; rfl
  have join : ∀ x : List Text, joinWith [58, 58] ((r.path :: r.classes ++ [r.func]) ++ (x ++ (i.classes ++ [i.func]))) =
      r.text ++ [58, 58] ++ joinWith [58, 58] (x ++ (i.classes ++ [i.func])) := by
    intro x
    rw [joinWith_append _ (by simp) (by simp), ← e0]
  simp only [mangle, partition2_text hr, partition2_text hi]
  split
  · next he =>
    have := path_inj hr hi he
    exact ⟨[], by rw [join]; rfl, by simp, .inl ⟨rfl, this.1.symm, this.2.symm⟩⟩
  · rw [before_path hr, before_path hi]
    split
    · next hp =>
      obtain ⟨es, he⟩ := hs (List.isPrefixOf_iff_prefix.mp hp)
      refine ⟨[joinWith [46] (es ++ [i.file])], ?_, ?_, .inr (.inl ⟨es, he.symm, rfl⟩)⟩
      · rw [join, module_name hi he.symm]
        show _ = _ ++ joinWith [58, 58] (_ :: (i.classes ++ [i.func]))
        rw [joinWith_cons _ _ (by simp)]
        simp [NodeId.function]
      · intro t ht
        rw [List.mem_singleton.mp ht]
        refine calm_of_no_colon ?_ ?_
        · intro hc
          cases es with
          | nil => exact hi.file.1 hc
          | cons a as => simp [joinWith_cons] at hc
        · intro hm
          rcases mem_joinWith hm with hm | ⟨t, ht, hm⟩
          · simp at hm
          · have : t ∈ i.dirs ++ [i.file] := by
              rw [← he, List.append_assoc]; exact List.mem_append_right _ ht
            exact (hi.names t this).2.2.2 hm
    · next hp =>
      refine ⟨[i.path], ?_, ?_, .inr (.inr ⟨rfl, ?_⟩)⟩
      · rw [join]
        show _ = _ ++ joinWith [58, 58] (_ :: (i.classes ++ [i.func]))
        rw [joinWith_cons _ _ (by simp)]
        simp [NodeId.text, NodeId.function]
      · intro t ht
        rw [List.mem_singleton.mp ht]
        exact path_calm hi
      · rintro ⟨es, he⟩
        apply hp
        rw [List.isPrefixOf_iff_prefix, ← he]
        cases hd : r.dirs with
        | nil => exact List.nil_prefix
        | cons d ds =>
          cases es with
          | nil => rw [List.append_nil]; exact List.prefix_refl _
          | cons a as =>
            rw [joinWith_append _ (by simp) (by simp), List.append_assoc]
            exact List.prefix_append _ _

/-! ## Attributes in the result file -/

theorem replaceGo_none {old new f : Text} (h : ∀ t, t <:+ f → t ≠ [] → old.isPrefixOf t = false) : replaceGo old new 0 f = f := by
  induction f with
  | nil => rfl
  | cons c f ih =>
    rw [replaceGo, h _ (List.suffix_refl _) (by simp)]
    simp [ih fun t ht => h t (ht.trans (List.suffix_cons ..))]

theorem prefix_head {x : Nat} {old f : Text} (h : x ∉ f) (t : Text) (ht : t <:+ f) : (x :: old).isPrefixOf t = false := by
  cases t with
  | nil => rfl
  | cons c t =>
    have : x ≠ c := fun e => h (ht.subset (by simp [e]))
    simp [List.isPrefixOf, this]

/-- Replacing `.py::`. -/
theorem replace_py {f : Text} (hf : 46 ∉ f) (a : Text) (k : Nat) (hk : k ≤ a.length) (ha : a.getLast? ≠ some 58) :
    ∃ b, (replaceGo (py ++ [58, 58]) [46] k (a ++ 58 :: 58 :: f) = b ++ 58 :: 58 :: f ∧
        (b = [] ∨ b.getLast? ≠ some 58) ∧ (k < a.length → b.getLast? = a.getLast?)) ∨
      replaceGo (py ++ [58, 58]) [46] k (a ++ 58 :: 58 :: f) = b ++ 46 :: f := by
  have hf0 : replaceGo (py ++ [58, 58]) [46] 0 f = f := replaceGo_none fun t ht _ => prefix_head hf t ht
  induction a generalizing k with
  | nil =>
    obtain rfl : k = 0 := by simpa using hk
    refine ⟨[], .inl ⟨?_, .inl rfl, by simp⟩⟩
    simp [replaceGo, py, List.isPrefixOf]
    simpa [py] using hf0
  | cons c a ih =>
    have ha' : a.getLast? ≠ some 58 := by
      intro h
      apply ha
      cases a with
      | nil => cases h
      | cons d a => rw [List.getLast?_cons_cons]; exact h
    cases k with
    | succ k =>
      simp only [List.length_cons, Nat.add_le_add_iff_right] at hk
      obtain ⟨b, hb⟩ := ih k hk ha'
      refine ⟨b, ?_⟩
      rw [List.cons_append, replaceGo]
      rcases hb with ⟨h1, h2, h3⟩ | h1
      · refine .inl ⟨h1, h2, fun hlt => ?_⟩
        simp only [List.length_cons, Nat.add_lt_add_iff_right] at hlt
        rw [h3 hlt]
        cases a with
        | nil => simp at hlt
        | cons d a => rw [List.getLast?_cons_cons]
      · exact .inr h1
    | zero =>
      rw [List.cons_append, replaceGo]
      split
      · next hp =>
        have hp := List.isPrefixOf_iff_prefix.mp hp
        show ∃ b, (46 :: replaceGo _ _ 4 _ = _ ∧ _) ∨ 46 :: replaceGo _ _ 4 _ = _
        obtain ⟨rest, hr⟩ := hp
        simp only [py, List.cons_append, List.nil_append, List.cons.injEq] at hr
        obtain ⟨rfl, hr⟩ := hr
        match a, hr with
        | [], hr => simp at hr
        | [x], hr => simp at hr
        | [x, y], hr =>
          simp only [List.cons_append, List.nil_append, List.cons.injEq] at hr
          exact ⟨[], .inr (by simp [replaceGo]; simpa [py] using hf0)⟩
        | [x, y, z], hr =>
          simp only [List.cons_append, List.nil_append, List.cons.injEq] at hr
          obtain ⟨-, -, rfl, -⟩ := hr
          exact absurd rfl ha
        | [x, y, z, u], hr =>
          simp only [List.cons_append, List.nil_append, List.cons.injEq] at hr
          obtain ⟨-, -, -, rfl, -⟩ := hr
          exact absurd rfl ha
        | x :: y :: z :: u :: v :: a, hr =>
          obtain ⟨b, hb⟩ := ih 4 (by simp) ha'
          refine ⟨46 :: b, ?_⟩
          rcases hb with ⟨h1, h2, h3⟩ | h1
          · have h3 := h3 (by simp)
            refine .inl ⟨by rw [h1]; rfl, ?_, fun _ => ?_⟩
            · right
              cases b with
              | nil => rw [List.getLast?_cons] at h3; cases h3
              | cons d b => rw [List.getLast?_cons_cons, h3]; exact ha'
            · cases b with
              | nil => rw [List.getLast?_cons] at h3; cases h3
              | cons d b => rw [List.getLast?_cons_cons, h3]; rfl
          · exact .inr (by rw [h1]; rfl)
      · obtain ⟨b, hb⟩ := ih 0 (Nat.zero_le _) ha'
        refine ⟨c :: b, ?_⟩
        rcases hb with ⟨h1, h2, h3⟩ | h1
        · have hl : (c :: b).getLast? = (c :: a).getLast? := by
            cases a with
            | nil =>
              have : b = [] := by
                have e : replaceGo (py ++ [58, 58]) [46] 0 ([] ++ 58 :: 58 :: f) = 58 :: 58 :: f := by
                  simp [replaceGo, py, List.isPrefixOf]
                  simpa [py] using hf0
                rw [e] at h1
                have := congrArg List.length h1
                simpa using this
              rw [this]
            | cons d a =>
              have h3 := h3 (by simp)
              cases b with
              | nil =>
                rw [List.getLast?_cons] at h3
                cases h3
              | cons x b => rw [List.getLast?_cons_cons, h3, List.getLast?_cons_cons]
          exact .inl ⟨by rw [h1]; rfl, .inr (by rw [hl]; exact ha), fun _ => hl⟩
        · exact .inr (by rw [h1]; rfl)

/-- Replacing `::`. -/
theorem replace_colons {f : Text} (hf : 58 ∉ f) (a : Text) (k : Nat) (hk : k ≤ a.length) :
    (a.getLast? ≠ some 58 → ∃ b, replaceGo [58, 58] [46] k (a ++ 58 :: 58 :: f) = b ++ 46 :: f) ∧
    ∃ b, replaceGo [58, 58] [46] k (a ++ 46 :: f) = b ++ 46 :: f := by
  have hf0 : replaceGo [58, 58] [46] 0 f = f := replaceGo_none fun t ht _ => prefix_head hf t ht
  induction a generalizing k with
  | nil =>
    obtain rfl : k = 0 := by simpa using hk
    exact ⟨fun _ => ⟨[], by simp [replaceGo, List.isPrefixOf]; exact hf0⟩, [], by simp [replaceGo, List.isPrefixOf]; exact hf0⟩
  | cons c a ih =>
    have ha' : (c :: a).getLast? ≠ some 58 → a.getLast? ≠ some 58 := by
      intro ha h
      apply ha
      cases a with
      | nil => cases h
      | cons d a => rw [List.getLast?_cons_cons]; exact h
    cases k with
    | succ k =>
      simp only [List.length_cons, Nat.add_le_add_iff_right] at hk
      obtain ⟨i1, i2⟩ := ih k hk
      exact ⟨fun ha => by rw [List.cons_append, replaceGo]; exact i1 (ha' ha),
        by rw [List.cons_append, replaceGo]; exact i2⟩
    | zero =>
      constructor
      · intro ha
        rw [List.cons_append, replaceGo]
        split
        · next hp =>
          obtain ⟨rest, hr⟩ := List.isPrefixOf_iff_prefix.mp hp
          simp only [List.cons_append, List.nil_append, List.cons.injEq] at hr
          obtain ⟨rfl, hr⟩ := hr
          cases a with
          | nil => exact absurd rfl ha
          | cons d a =>
            obtain ⟨b, hb⟩ := (ih 1 (by simp)).1 (ha' ha)
            exact ⟨46 :: b, by show 46 :: replaceGo _ _ 1 _ = _; rw [hb]; rfl⟩
        · obtain ⟨b, hb⟩ := (ih 0 (Nat.zero_le _)).1 (ha' ha)
          exact ⟨c :: b, by rw [hb]; rfl⟩
      · rw [List.cons_append, replaceGo]
        split
        · next hp =>
          obtain ⟨rest, hr⟩ := List.isPrefixOf_iff_prefix.mp hp
          simp only [List.cons_append, List.nil_append, List.cons.injEq] at hr
          obtain ⟨rfl, hr⟩ := hr
          cases a with
          | nil => simp at hr
          | cons d a =>
            obtain ⟨b, hb⟩ := (ih 1 (by simp)).2
            exact ⟨46 :: b, by show 46 :: replaceGo _ _ 1 _ = _; rw [hb]; rfl⟩
        · obtain ⟨b, hb⟩ := (ih 0 (Nat.zero_le _)).2
          exact ⟨c :: b, by rw [hb]; rfl⟩

theorem replace_slash (t : Text) : replaceText [47] [46] t = t.map fun c => if c = 47 then 46 else c := by
  unfold replaceText
  induction t with
  | nil => rfl
  | cons c t ih =>
    rw [replaceGo]
    by_cases h : c = 47
    · subst h
      simp [List.isPrefixOf, ih]
    · simp [List.isPrefixOf, Ne.symm h, h, ih]

/-- The name of a test function without dots, slashes and colons is the `name` of its result. -/
theorem junit_name {a f : Text} (ha : a.getLast? ≠ some 58) (hd : 46 ∉ f) (hs : 47 ∉ f) (hc : 58 ∉ f) :
    (junit (a ++ [58, 58] ++ f)).2 = f := by
  have e1 : replaceText [47] [46] (a ++ [58, 58] ++ f) =
      a.map (fun c => if c = 47 then 46 else c) ++ 58 :: 58 :: f := by
    have hm : f.map (fun c => if c = 47 then 46 else c) = f := by
      conv => rhs; rw [← List.map_id f]
      refine List.map_congr_left fun c hc => ?_
      rw [if_neg (show c ≠ 47 from fun e => hs (e ▸ hc))]; rfl
    rw [replace_slash, List.map_append, List.map_append, hm]
    simp
  have ha' : (a.map (fun c => if c = 47 then 46 else c)).getLast? ≠ some 58 := by
    rw [List.getLast?_map]
    cases hl : a.getLast? with
    | none => simp
    | some c =>
      rw [hl] at ha
      simp only [Option.map_some, ne_eq, Option.some.injEq]
      split
      · simp
      · intro e; exact ha (by rw [e])
  obtain ⟨b, hb⟩ := replace_py hd _ 0 (Nat.zero_le _) ha'
  have : ∃ d, replaceText [58, 58] [46] (replaceText (py ++ [58, 58]) [46] (replaceText [47] [46] (a ++ [58, 58] ++ f))) =
      d ++ 46 :: f := by
    rw [e1, replaceText, replaceText]
    rcases hb with ⟨h1, h2, -⟩ | h1
    · rw [h1]
      refine (replace_colons hc b 0 (Nat.zero_le _)).1 ?_
      rcases h2 with rfl | h2
      · simp
      · exact h2
    · rw [h1]
      exact (replace_colons hc b 0 (Nat.zero_le _)).2
  obtain ⟨d, hd'⟩ := this
  simp only [junit, hd']
  exact after_until hd

end Verif.PytestId
