import Verif.Spec.Paths
import Verif.Props.Hierarchy
/-!
# C169: the path of an object
-/
namespace Verif
open Paths PathSpec Spec
open Verif.Hier (Hdl Kind Key Disc Design subKey)

namespace PathsL

theorem child_det {D : PDesign} {a b c : Node} {k : Key} (h1 : Child D a k b) (h2 : Child D a k c) : b = c := by
  obtain ⟨a1, a2, _⟩ := h1
  obtain ⟨b1, b2, _⟩ := h2
  obtain ⟨bh, bc⟩ := b
  obtain ⟨ch, cc⟩ := c
  simp only at a1 a2 b1 b2
  rw [a1] at b1
  cases b1
  rw [a2, b2]

theorem piece_eq (D : PDesign) (x : PObj) (k : Key) : childPath D x k = x.path ++ piece D x.hdl k := by
  cases k with
  | name n => simp only [childPath, piece]; split <;> simp
  | idx i => simp [childPath, piece]

/-- What holds of the objects made by a program that asked for the raw handles `R` and for keys with `G` only. -/
structure Inv (D : PDesign) (R : List Hdl) (G : Key → Prop) (s : PSt) : Prop where
  way : ∀ (o : Nat) x, s.objs[o]? = some x → ∃ r ∈ R, ∃ ks, (∀ k ∈ ks, G k) ∧ Way D r ks (node x) x.path
  cls : ∀ (o : Nat) x, s.objs[o]? = some x → x.cls = D.kind x.hdl ∨ x.cls = .leaf
  subs : ∀ (o : Nat) x k c, s.objs[o]? = some x → dictGet x.subs k = some c →
    ∃ y, s.objs[c]? = some y ∧ Child D (node x) k (node y)
  table : ∀ h (o : Nat), dictGet s.table h = some o → ∃ x, s.objs[o]? = some x ∧ node x = (h, D.kind h) ∧ D.kind h ≠ .unsupported

/-- Objects stay what they are. -/
def Le (s t : PSt) : Prop := ∀ (o : Nat) x, s.objs[o]? = some x → ∃ y, t.objs[o]? = some y ∧ node y = node x ∧ y.path = x.path

theorem Le.refl (s : PSt) : Le s s := fun _ x h => ⟨x, h, rfl, rfl⟩

theorem Le.trans {s t u : PSt} (h1 : Le s t) (h2 : Le t u) : Le s u := by
  intro o x h
  obtain ⟨y, hy, e1, e2⟩ := h1 o x h
  obtain ⟨z, hz, f1, f2⟩ := h2 o y hy
  exact ⟨z, hz, f1.trans e1, f2.trans e2⟩

theorem init_inv (D : PDesign) (R : List Hdl) (G : Key → Prop) : Inv D R G PSt.init :=
  ⟨by simp [PSt.init], by simp [PSt.init], by simp [PSt.init], by simp [PSt.init, dictGet]⟩

theorem Inv.mono {D : PDesign} {R R' : List Hdl} {G : Key → Prop} {s : PSt} (h : Inv D R G s) (hR : ∀ r ∈ R, r ∈ R') : Inv D R' G s :=
  ⟨fun o x hx => by obtain ⟨r, hr, q⟩ := h.way o x hx; exact ⟨r, hR r hr, q⟩, h.cls, h.subs, h.table⟩

/-- Adding an object. -/
theorem add_le (s : PSt) (z : PObj) (tb : List (Hdl × Nat)) (n : Nat) : Le s ⟨s.objs ++ [z], tb, n⟩ := by
  intro o x h
  have hl := (List.getElem?_eq_some_iff.mp h).1
  exact ⟨x, by simp only; rw [List.getElem?_append_left hl, h], rfl, rfl⟩

theorem add_new (s : PSt) (z : PObj) : (s.objs ++ [z])[s.objs.length]? = some z := by simp

theorem add_cases (s : PSt) (z : PObj) {o : Nat} {x : PObj} (h : (s.objs ++ [z])[o]? = some x) :
    s.objs[o]? = some x ∨ (o = s.objs.length ∧ x = z) := by
  by_cases hl : o < s.objs.length
  · left; rwa [List.getElem?_append_left hl] at h
  · right
    rw [List.getElem?_append_right (by omega)] at h
    have : o - s.objs.length = 0 := by
      cases hn : o - s.objs.length with
      | zero => rfl
      | succ n => rw [hn] at h; simp at h
    refine ⟨by omega, ?_⟩
    rw [this] at h; simpa using h.symm

theorem add_inv {D : PDesign} {R : List Hdl} {G : Key → Prop} {s : PSt} (hI : Inv D R G s) (h : Hdl) (cl : Kind) (p : PyStr) (n : Nat)
    (tb : List (Hdl × Nat)) (hc : cl = D.kind h ∨ cl = .leaf) (hw : ∃ r ∈ R, ∃ ks, (∀ k ∈ ks, G k) ∧ Way D r ks (h, cl) p)
    (ht : tb = s.table ∨ (tb = dictSet s.table h s.objs.length ∧ cl = D.kind h ∧ cl ≠ .unsupported)) :
    Inv D R G ⟨s.objs ++ [⟨h, cl, p, [], false⟩], tb, n⟩ := by
  have hle := add_le s ⟨h, cl, p, [], false⟩ tb n
  refine ⟨?_, ?_, ?_, ?_⟩
  · intro o x hx
    rcases add_cases s _ hx with hx | ⟨_, rfl⟩
    · exact hI.way o x hx
    · exact hw
  · intro o x hx
    rcases add_cases s _ hx with hx | ⟨_, rfl⟩
    · exact hI.cls o x hx
    · exact hc
  · intro o x k c hx hk
    rcases add_cases s _ hx with hx | ⟨_, rfl⟩
    · obtain ⟨y, hy, hch⟩ := hI.subs o x k c hx hk
      obtain ⟨z, hz, e, _⟩ := hle c y hy
      exact ⟨z, hz, by rw [e]; exact hch⟩
    · simp [dictGet] at hk
  · intro g o hg
    rcases ht with rfl | ⟨rfl, rfl, hu⟩
    · obtain ⟨x, hx, e, hu⟩ := hI.table g o hg
      obtain ⟨z, hz, e', _⟩ := hle o x hx
      exact ⟨z, hz, e'.trans e, hu⟩
    · simp only [dictGet_set] at hg
      split at hg
      · rename_i e
        subst e
        cases hg
        exact ⟨_, add_new s _, rfl, hu⟩
      · obtain ⟨x, hx, e, hu⟩ := hI.table g o hg
        obtain ⟨z, hz, e', _⟩ := hle o x hx
        exact ⟨z, hz, e'.trans e, hu⟩

theorem modify_cases {l : List PObj} {o j : Nat} {f : PObj → PObj} {y : PObj} (h : (l.modify o f)[j]? = some y) :
    ∃ x, l[j]? = some x ∧ y = if o = j then f x else x := by
  rw [List.getElem?_modify] at h
  cases hj : l[j]? with
  | none => simp [hj] at h
  | some x =>
    refine ⟨x, rfl, ?_⟩
    simp only [hj] at h
    split at h <;> simp_all

theorem modify_le (s : PSt) (o : Nat) (f : PObj → PObj) (hn : ∀ x, node (f x) = node x) (hp : ∀ x, (f x).path = x.path) :
    Le s { s with objs := s.objs.modify o f } := by
  intro j x hx
  refine ⟨if o = j then f x else x, ?_, ?_, ?_⟩
  · simp only [List.getElem?_modify, hx]; split <;> simp [*]
  · split <;> simp [hn]
  · split <;> simp [hp]

theorem modify_inv {D : PDesign} {R : List Hdl} {G : Key → Prop} {s : PSt} (hI : Inv D R G s) (o : Nat) (f : PObj → PObj)
    (hn : ∀ x, node (f x) = node x) (hp : ∀ x, (f x).path = x.path)
    (hs : ∀ x k c, s.objs[o]? = some x → dictGet (f x).subs k = some c → dictGet x.subs k = some c ∨
      ∃ y, s.objs[c]? = some y ∧ Child D (node x) k (node y)) :
    Inv D R G { s with objs := s.objs.modify o f } := by
  have hle := modify_le s o f hn hp
  refine ⟨?_, ?_, ?_, ?_⟩
  · intro j y hy
    obtain ⟨x, hx, e⟩ := modify_cases hy
    obtain ⟨r, hr, ks, hg, hw⟩ := hI.way j x hx
    have h1 : node y = node x := by subst e; split <;> simp [hn]
    have h2 : y.path = x.path := by subst e; split <;> simp [hp]
    exact ⟨r, hr, ks, hg, by rw [h1, h2]; exact hw⟩
  · intro j y hy
    obtain ⟨x, hx, e⟩ := modify_cases hy
    have h1 : node y = node x := by subst e; split <;> simp [hn]
    have h2 : y.hdl = x.hdl := congrArg Prod.fst h1
    have h3 : y.cls = x.cls := congrArg Prod.snd h1
    rw [h2, h3]
    exact hI.cls j x hx
  · intro j y k c hy hk
    obtain ⟨x, hx, e⟩ := modify_cases hy
    have h1 : node y = node x := by subst e; split <;> simp [hn]
    have : ∃ z, s.objs[c]? = some z ∧ Child D (node x) k (node z) := by
      by_cases hj : o = j
      · subst hj
        rw [if_pos rfl] at e
        subst e
        rcases hs x k c hx hk with h | h
        · exact hI.subs o x k c hx h
        · exact h
      · rw [if_neg hj] at e
        subst e
        exact hI.subs j y k c hx hk
    obtain ⟨z, hz, hch⟩ := this
    obtain ⟨w, hw, e', _⟩ := hle c z hz
    exact ⟨w, hw, by rw [h1, e']; exact hch⟩
  · intro g j hg
    obtain ⟨x, hx, e, hu⟩ := hI.table g j hg
    obtain ⟨z, hz, e', _⟩ := hle j x hx
    exact ⟨z, hz, e'.trans e, hu⟩

theorem make_le (D : PDesign) (h : Hdl) (p : Option PyStr) (s : PSt) : Le s (make D h p s).2 := by
  unfold make
  split
  · exact Le.refl s
  · split
    · exact Le.refl s
    · exact add_le s _ _ _

theorem make_inv {D : PDesign} {R : List Hdl} {G : Key → Prop} {s : PSt} (hI : Inv D R G s) (h : Hdl) (p : Option PyStr)
    (hw : D.kind h ≠ .unsupported → ∃ r ∈ R, ∃ ks, (∀ k ∈ ks, G k) ∧ Way D r ks (h, D.kind h) (p.getD (D.name h))) :
    Inv D R G (make D h p s).2 ∧
    (∀ c, (make D h p s).1 = some c → ∃ y, (make D h p s).2.objs[c]? = some y ∧ node y = (h, D.kind h) ∧
      D.kind h ≠ .unsupported) ∧
    (D.kind h ≠ .unsupported → ((make D h p s).1).isSome) := by
  unfold make
  split
  · rename_i o ho
    refine ⟨hI, fun c hc => ?_, fun _ => rfl⟩
    cases hc
    exact hI.table h o ho
  · split
    · rename_i hu
      exact ⟨hI, by simp, fun h => absurd hu h⟩
    · rename_i hu
      refine ⟨add_inv hI h _ _ _ _ (.inl rfl) (hw hu) (.inr ⟨rfl, rfl, hu⟩), fun c hc => ?_, fun _ => rfl⟩
      cases hc
      exact ⟨_, add_new s _, rfl, hu⟩

theorem setSub_le (s : PSt) (o : Nat) (k : Key) (c : Nat) : Le s (s.setSub o k c) :=
  modify_le s o _ (fun _ => rfl) (fun _ => rfl)

theorem setSub_inv {D : PDesign} {R : List Hdl} {G : Key → Prop} {s : PSt} (hI : Inv D R G s) (o : Nat) (k : Key) (c : Nat)
    (hc : ∀ x, s.objs[o]? = some x → ∃ y, s.objs[c]? = some y ∧ Child D (node x) k (node y)) :
    Inv D R G (s.setSub o k c) := by
  refine modify_inv hI o _ (fun _ => rfl) (fun _ => rfl) fun x j d hx hd => ?_
  simp only [dictGet_set] at hd
  split at hd
  · rename_i e
    subst e
    cases hd
    exact .inr (hc x hx)
  · exact .inl hd

theorem ask_auto (D : PDesign) (x : PObj) (k : Key) (s : PSt) :
    ask D x k .auto s = (answer D.toDesign x.cls x.hdl k, s) := by
  unfold ask answer
  cases x.cls <;> cases k <;> simp

theorem lookup_ok {D : PDesign} {R : List Hdl} {G : Key → Prop} {s : PSt} (hI : Inv D R G s) {o : Nat} {x : PObj} (hx : s.objs[o]? = some x)
    (k : Key) (hG : G k) :
    Inv D R G (lookup D o x k .auto s).2 ∧ Le s (lookup D o x k .auto s).2 ∧
    (∀ c, (lookup D o x k .auto s).1 = some c →
      ∃ y, (lookup D o x k .auto s).2.objs[c]? = some y ∧ Child D (node x) k (node y)) ∧
    (∀ b, Child D (node x) k b → ((lookup D o x k .auto s).1).isSome) := by
  unfold lookup
  split
  · rename_i c hc
    refine ⟨hI, Le.refl s, fun d hd => ?_, fun _ _ => rfl⟩
    cases hd
    exact hI.subs o x k _ hx hc
  · rw [ask_auto]
    obtain ⟨r, hr, ks, hg, hw⟩ := hI.way o x hx
    have hgk : ∀ j ∈ ks ++ [k], G j := by
      intro j hj
      rcases List.mem_append.mp hj with hj | hj
      · exact hg j hj
      · rw [List.mem_singleton.mp hj]; exact hG
    split
    · rename_i s' he
      simp only [Prod.mk.injEq] at he
      obtain ⟨ha, rfl⟩ := he
      refine ⟨hI, Le.refl _, by simp, fun b hb => ?_⟩
      have := hb.1
      simp only [node] at this
      rw [ha] at this
      cases this
    · rename_i h s' he
      simp only [Prod.mk.injEq] at he
      obtain ⟨ha, rfl⟩ := he
      split
      · rename_i hl
        have hch : Child D (node x) k (h, .leaf) := ⟨ha, by simp [node, hl], by simp⟩
        have hI2 : Inv D R G { s with objs := s.objs ++ [⟨h, .leaf, childPath D x k, [], false⟩] } :=
          add_inv hI h .leaf _ _ _ (.inr rfl) ⟨r, hr, ks ++ [k], hgk, by rw [piece_eq]; exact hw.step hch⟩ (.inl rfl)
        have hle2 : Le s { s with objs := s.objs ++ [⟨h, .leaf, childPath D x k, [], false⟩] } := add_le s _ _ _
        refine ⟨setSub_inv hI2 o k _ fun z hz => ?_, hle2.trans (setSub_le _ _ _ _), fun c hc => ?_, fun _ _ => rfl⟩
        · refine ⟨_, add_new s _, ?_⟩
          obtain ⟨z', hz', e, _⟩ := hle2 o x hx
          rw [hz'] at hz
          cases hz
          rw [e]; exact hch
        · cases hc
          obtain ⟨y, hy, e, _⟩ := setSub_le { s with objs := s.objs ++ [⟨h, .leaf, childPath D x k, [], false⟩] } o k
            s.objs.length s.objs.length _ (add_new s _)
          exact ⟨y, hy, by rw [e]; exact hch⟩
      · rename_i hl
        have hch : D.kind h ≠ .unsupported → Child D (node x) k (h, D.kind h) :=
          fun hu => ⟨ha, by simp [node, hl], hu⟩
        have hm := make_inv hI h (some (childPath D x k)) fun hu =>
          ⟨r, hr, ks ++ [k], hgk, by rw [Option.getD_some, piece_eq]; exact hw.step (hch hu)⟩
        have hle := make_le D h (some (childPath D x k)) s
        generalize make D h (some (childPath D x k)) s = q at hm hle
        obtain ⟨q1, q2⟩ := q
        obtain ⟨hI2, h2, h3⟩ := hm
        simp only at hI2 h2 h3 hle
        cases q1 with
        | none =>
          refine ⟨hI2, hle, by simp, fun b hb => ?_⟩
          have e1 : h = b.1 := by
            have := hb.1
            simp only [node] at this
            rw [ha] at this
            exact Option.some.inj this
          have e2 : b.2 = D.kind h := by rw [e1]; exact hb.2.1.trans (by simp [node, hl])
          have := h3 (by rw [← e2]; exact hb.2.2)
          simp at this
        | some c =>
          obtain ⟨y, hy, e, hu⟩ := h2 c rfl
          simp only
          refine ⟨setSub_inv hI2 o k c fun z hz => ⟨y, hy, ?_⟩, hle.trans (setSub_le _ _ _ _), fun d hd => ?_, fun _ _ => rfl⟩
          · obtain ⟨z', hz', e', _⟩ := hle o x hx
            rw [hz'] at hz
            cases hz
            rw [e', e]; exact hch hu
          · cases hd
            obtain ⟨w, hw', e', _⟩ := setSub_le q2 o k c c y hy
            exact ⟨w, hw', by rw [e', e]; exact hch hu⟩

theorem discoverOne_ok {D : PDesign} (hD : Agree D.toDesign) {R : List Hdl} {G : Key → Prop} (hL : ListedG D G) {s : PSt} (hI : Inv D R G s) {o : Nat} {x x0 : PObj}
    (hx : s.objs[o]? = some x) (hn : node x0 = node x) (hp : x0.path = x.path) {c : Hdl} (hc : c ∈ D.children x.hdl) :
    Inv D R G (discoverOne D o x0 s c) ∧ Le s (discoverOne D o x0 s c) := by
  have e1 : x0.hdl = x.hdl := congrArg Prod.fst hn
  have e2 : x0.cls = x.cls := congrArg Prod.snd hn
  unfold discoverOne
  rw [e1, e2]
  split
  · exact ⟨hI, Le.refl s⟩
  · rename_i k hk
    have hcl : x.cls ≠ .leaf ∧ x.cls ≠ .logicArray := by
      constructor <;> intro e <;> rw [e] at hk <;> simp [subKey] at hk
    have hkd : x.cls = D.kind x.hdl := (hI.cls o x hx).resolve_right hcl.1
    have ha : answer D.toDesign x.cls x.hdl k = some c := by
      rw [hkd]
      exact hD x.hdl k c ⟨hc, by rw [← hkd]; exact hk⟩
    have hch : D.kind c ≠ .unsupported → Child D (node x) k (c, D.kind c) :=
      fun hu => ⟨ha, by simp [node, hcl.2], hu⟩
    obtain ⟨r, hr, ks, hg, hw⟩ := hI.way o x hx
    have hG : G k := hL x.hdl c k hc (by rw [← hkd]; exact hk)
    have hgk : ∀ j ∈ ks ++ [k], G j := by
      intro j hj
      rcases List.mem_append.mp hj with hj | hj
      · exact hg j hj
      · rw [List.mem_singleton.mp hj]; exact hG
    have hcp : childPath D x0 k = x.path ++ piece D x.hdl k := by rw [piece_eq, e1, hp]
    have hm := make_inv hI c (some (childPath D x0 k)) fun hu =>
      ⟨r, hr, ks ++ [k], hgk, by rw [Option.getD_some, hcp]; exact hw.step (hch hu)⟩
    have hle := make_le D c (some (childPath D x0 k)) s
    generalize make D c (some (childPath D x0 k)) s = q at hm hle
    obtain ⟨q1, q2⟩ := q
    obtain ⟨hI2, h2, _⟩ := hm
    simp only at hI2 h2 hle
    cases q1 with
    | none => exact ⟨hI2, hle⟩
    | some d =>
      obtain ⟨y, hy, e, hu⟩ := h2 d rfl
      simp only
      refine ⟨setSub_inv hI2 o k d fun z hz => ⟨y, hy, ?_⟩, hle.trans (setSub_le _ _ _ _)⟩
      obtain ⟨z', hz', e', _⟩ := hle o x hx
      rw [hz'] at hz
      cases hz
      rw [e', e]; exact hch hu

theorem discover_fold {D : PDesign} (hD : Agree D.toDesign) {R : List Hdl} {G : Key → Prop} (hL : ListedG D G) {o : Nat} {x0 : PObj} : ∀ (cs : List Hdl) {s : PSt},
    Inv D R G s → (∃ x, s.objs[o]? = some x ∧ node x0 = node x ∧ x0.path = x.path) → (∀ c ∈ cs, c ∈ D.children x0.hdl) →
    Inv D R G (cs.foldl (discoverOne D o x0) s) ∧ Le s (cs.foldl (discoverOne D o x0) s)
  | [], s, hI, _, _ => ⟨hI, Le.refl s⟩
  | c :: cs, s, hI, ⟨x, hx, hn, hp⟩, hc => by
    have e1 : x0.hdl = x.hdl := congrArg Prod.fst hn
    obtain ⟨h1, h2⟩ := discoverOne_ok hD hL hI hx hn hp (c := c) (by rw [← e1]; exact hc c (by simp))
    obtain ⟨y, hy, f1, f2⟩ := h2 o x hx
    obtain ⟨h3, h4⟩ := discover_fold hD hL (o := o) cs h1 ⟨y, hy, hn.trans f1.symm, hp.trans f2.symm⟩
      (fun d hd => hc d (by simp [hd]))
    exact ⟨h3, h2.trans h4⟩

theorem discover_ok {D : PDesign} (hD : Agree D.toDesign) {R : List Hdl} {G : Key → Prop} (hL : ListedG D G) {s : PSt} (hI : Inv D R G s) {o : Nat} {x : PObj}
    (hx : s.objs[o]? = some x) : Inv D R G (discover D o x s) ∧ Le s (discover D o x s) := by
  unfold discover
  split
  · exact ⟨hI, Le.refl s⟩
  · obtain ⟨h1, h2⟩ := discover_fold hD hL (o := o) (x0 := x) (D.children x.hdl) hI ⟨x, hx, rfl, rfl⟩ (fun _ h => h)
    exact ⟨modify_inv h1 o _ (fun _ => rfl) (fun _ => rfl) (fun _ _ _ _ h => .inl h),
      h2.trans (modify_le _ _ _ (fun _ => rfl) (fun _ => rfl))⟩

theorem step_ok {D : PDesign} (hD : Agree D.toDesign) {R : List Hdl} {G : Key → Prop} (hL : ListedG D G) {s : PSt} (hI : Inv D R G s) (op : POp)
    (hn : ∀ o k, op ≠ .look o k .native) (hr : ∀ h, op = .root h → h ∈ R)
    (hg : ∀ o k d, op = .look o k d → G k) :
    Inv D R G (step D s op).2 ∧ Le s (step D s op).2 := by
  cases op with
  | root h =>
    refine ⟨(make_inv hI h none fun hu => ⟨h, hr h rfl, [], by simp, .root hu⟩).1, make_le _ _ _ _⟩
  | look o k d =>
    cases d with
    | native => exact absurd rfl (hn o k)
    | auto =>
      simp only [step]
      split
      · exact ⟨hI, Le.refl s⟩
      · rename_i x hx
        obtain ⟨h1, h2, _⟩ := lookup_ok hI hx k (hg o k .auto rfl)
        exact ⟨h1, h2⟩
  | list o =>
    simp only [step]
    split
    · exact ⟨hI, Le.refl s⟩
    · rename_i x hx
      exact discover_ok hD hL hI hx

theorem run_ok {D : PDesign} (hD : Agree D.toDesign) {R : List Hdl} {G : Key → Prop} (hL : ListedG D G) : ∀ (ops : List POp) {s : PSt}, Inv D R G s → Ordinary ops →
    (∀ r ∈ roots ops, r ∈ R) → (∀ o k d, POp.look o k d ∈ ops → G k) → Inv D R G (run D ops s)
  | [], _, hI, _, _, _ => hI
  | op :: ops, s, hI, hn, hr, hg => by
    have h1 := (step_ok hD hL hI op (fun o k e => hn o k (by simp [e])) (fun h e => hr h (by subst e; simp [roots]))
      (fun o k d e => hg o k d (by simp [e]))).1
    exact run_ok hD hL ops h1 (fun o k h => hn o k (by simp [h])) (fun r h => hr r (by
      simp only [roots, List.mem_filterMap, List.mem_cons] at h ⊢
      obtain ⟨a, ha, e⟩ := h
      exact ⟨a, .inr ha, e⟩)) fun o k d h => hg o k d (by simp [h])

/-- Rest of a path. -/
def Stop (r : PyStr) : Prop := ∀ c, r.head? = some c → c = '.' ∨ c = ':' ∨ c = '['

theorem split_unique (P : Char → Prop) : ∀ (n n' r r' : PyStr), (∀ c ∈ n, P c) → (∀ c ∈ n', P c) →
    (∀ c, r.head? = some c → ¬ P c) → (∀ c, r'.head? = some c → ¬ P c) → n ++ r = n' ++ r' → n = n' ∧ r = r'
  | [], [], r, r', _, _, _, _, e => ⟨rfl, e⟩
  | [], c :: n', r, r', _, h2, h3, _, e => by
    simp only [List.nil_append, List.cons_append] at e
    exact absurd (h2 c (by simp)) (h3 c (by simp [e]))
  | c :: n, [], r, r', h1, _, _, h4, e => by
    simp only [List.nil_append, List.cons_append] at e
    exact absurd (h1 c (by simp)) (h4 c (by simp [← e]))
  | c :: n, d :: n', r, r', h1, h2, h3, h4, e => by
    simp only [List.cons_append, List.cons.injEq] at e
    obtain ⟨e1, e2⟩ := e
    obtain ⟨f1, f2⟩ := split_unique P n n' r r' (fun x h => h1 x (by simp [h])) (fun x h => h2 x (by simp [h])) h3 h4 e2
    exact ⟨by rw [e1, f1], f2⟩

theorem ident_unique {n n' r r' : PyStr} (h1 : Ident n) (h2 : Ident n') (h3 : Stop r) (h4 : Stop r')
    (e : n ++ r = n' ++ r') : n = n' ∧ r = r' := by
  have stop : ∀ {r : PyStr}, Stop r → ∀ c, r.head? = some c → ¬ (c ≠ '.' ∧ c ≠ ':' ∧ c ≠ '[' ∧ c ≠ '\\') := by
    intro r h c hc ⟨a1, a2, a3, _⟩
    rcases h c hc with h | h | h
    · exact a1 h
    · exact a2 h
    · exact a3 h
  rcases h1 with ⟨n1, n2⟩ | ⟨m, rfl, hm⟩
  · rcases h2 with ⟨n3, n4⟩ | ⟨m, rfl, hm⟩
    · exact split_unique _ n n' r r' n2 n4 (stop h3) (stop h4) e
    · cases n with
      | nil => exact absurd rfl n1
      | cons c n =>
        simp only [List.cons_append, List.cons.injEq] at e
        exact absurd e.1 (n2 c (by simp)).2.2.2
  · rcases h2 with ⟨n3, n4⟩ | ⟨m', rfl, hm'⟩
    · cases n' with
      | nil => exact absurd rfl n3
      | cons c n =>
        simp only [List.cons_append, List.cons.injEq] at e
        exact absurd e.1.symm (n4 c (by simp)).2.2.2
    · simp only [List.cons_append, List.append_assoc, List.cons.injEq, true_and, List.nil_append] at e
      obtain ⟨f1, f2⟩ := split_unique (· ≠ '\\') m m' _ _ hm hm' (by simp) (by simp) e
      simp only [List.cons.injEq, true_and] at f2
      exact ⟨by rw [f1], f2⟩

theorem intStr_chars (i : Int) : ∀ c ∈ intStr i, c ≠ ']' := by
  have hd : ∀ n, ∀ c ∈ decStr n, c ≠ ']' := by
    intro n c hc e
    obtain ⟨d, hd, rfl⟩ := decStr_digits n c hc
    revert e
    have : ∀ d < 10, decChar d ≠ ']' := by decide
    exact this d hd
  unfold intStr
  split
  · intro c hc
    rcases List.mem_cons.mp hc with rfl | hc
    · decide
    · exact hd _ c hc
  · exact hd _

theorem intStr_inj' {i j : Int} (h : intStr i = intStr j) : i = j := by
  have hd : ∀ n r, decStr n ≠ '-' :: r := by
    intro n r e
    obtain ⟨d, hd, e'⟩ := decStr_digits n '-' (by rw [e]; simp)
    revert e'
    have : ∀ d < 10, '-' ≠ decChar d := by decide
    exact this d hd
  unfold intStr at h
  split at h <;> split at h
  · have := decStr_inj (List.cons.inj h).2; omega
  · exact absurd h.symm (hd _ _)
  · exact absurd h (hd _ _)
  · have := decStr_inj h; omega

/-- `piece` with the kind of scope as an argument. -/
def piece' : Bool × Key → PyStr
  | (b, .name n) => (if b then [':', ':'] else ['.']) ++ n
  | (_, .idx i) => '[' :: intStr i ++ [']']

theorem piece_piece' (D : PDesign) (h : Hdl) (k : Key) : piece D h k = piece' (D.pkg h, k) := by
  cases k <;> rfl

/-- The end of a path. -/
def rest : List (Bool × Key) → PyStr
  | [] => []
  | x :: xs => piece' x ++ rest xs

theorem rest_stop (l : List (Bool × Key)) : Stop (rest l) := by
  intro c h
  match l with
  | [] => simp [rest] at h
  | (b, .name n) :: l => cases b <;> simp [rest, piece'] at h <;> simp [← h]
  | (b, .idx i) :: l => simp [rest, piece'] at h; simp [← h]

theorem rest_append (a b : List (Bool × Key)) : rest (a ++ b) = rest a ++ rest b := by
  induction a with
  | nil => rfl
  | cons x a ih => simp [rest, ih]

/-- The key is an index or an identifier. -/
def IdentKey (k : Key) : Prop := ∀ n, k = .name n → Ident n

theorem rest_inj : ∀ (a b : List (Bool × Key)), (∀ x ∈ a, IdentKey x.2) → (∀ x ∈ b, IdentKey x.2) → rest a = rest b →
    a.map (·.2) = b.map (·.2)
  | [], [], _, _, _ => rfl
  | [], (b, .name n) :: l, _, _, e => by cases b <;> simp [rest, piece'] at e
  | [], (b, .idx i) :: l, _, _, e => by simp [rest, piece'] at e
  | (b, .name n) :: l, [], _, _, e => by cases b <;> simp [rest, piece'] at e
  | (b, .idx i) :: l, [], _, _, e => by simp [rest, piece'] at e
  | (b, .idx i) :: l, (b', .name n) :: l', _, _, e => by cases b' <;> simp [rest, piece'] at e
  | (b, .name n) :: l, (b', .idx i) :: l', _, _, e => by cases b <;> simp [rest, piece'] at e
  | (b, .idx i) :: l, (b', .idx j) :: l', h1, h2, e => by
    simp only [rest, piece', List.cons_append, List.append_assoc, List.cons.injEq, true_and, List.nil_append] at e
    obtain ⟨f1, f2⟩ := split_unique (· ≠ ']') _ _ _ _ (intStr_chars i) (intStr_chars j) (by simp) (by simp) e
    simp only [List.cons.injEq, true_and] at f2
    simp [intStr_inj' f1, rest_inj l l' (fun x h => h1 x (by simp [h])) (fun x h => h2 x (by simp [h])) f2]
  | (b, .name n) :: l, (b', .name n') :: l', h1, h2, e => by
    have hn : n ++ rest l = n' ++ rest l' := by
      cases b <;> cases b' <;> simp [rest, piece'] at e <;> exact e
    obtain ⟨f1, f2⟩ := ident_unique (h1 (b, .name n) (by simp) n rfl) (h2 (b', .name n') (by simp) n' rfl) (rest_stop l)
      (rest_stop l') hn
    simp [f1, rest_inj l l' (fun x h => h1 x (by simp [h])) (fun x h => h2 x (by simp [h])) f2]

theorem child_kind {D : PDesign} {r : Hdl} {ks : List Key} {a b : Node} {p : PyStr} {k : Key} (h : Way D r ks a p)
    (hc : Child D a k b) : a = (a.1, D.kind a.1) := by
  have hl : a.2 ≠ .leaf := by
    intro e
    have := hc.1
    rw [e] at this
    cases k <;> simp [answer] at this
  cases h with
  | root _ => rfl
  | step _ hc' =>
    have := hc'.2.1
    split at this
    · exact absurd this hl
    · rw [← this]

theorem way_text {D : PDesign} {r : Hdl} {ks : List Key} {a : Node} {p : PyStr} (h : Way D r ks a p) :
    ∃ l : List (Bool × Key), l.map (·.2) = ks ∧ p = D.name r ++ rest l := by
  induction h with
  | root _ => exact ⟨[], rfl, by simp [rest]⟩
  | @step ks a p k b _ _ ih =>
    obtain ⟨l, h1, h2⟩ := ih
    exact ⟨l ++ [(D.pkg a.1, k)], by simp [h1], by simp [h2, rest_append, rest, piece_piece']⟩

theorem way_det {D : PDesign} {r : Hdl} {ks : List Key} {a : Node} {p : PyStr} (h : Way D r ks a p) :
    ∀ {b q}, Way D r ks b q → a = b ∧ p = q := by
  induction h with
  | root _ =>
    intro b q h
    generalize hk : ([] : List Key) = ks at h
    cases h with
    | root _ => exact ⟨rfl, rfl⟩
    | step _ _ => simp at hk
  | @step ks a p k b _ hc ih =>
    intro b' q h
    generalize hk : ks ++ [k] = ks' at h
    cases h with
    | root _ => simp at hk
    | step hw' hc' =>
      obtain ⟨rfl, e⟩ := List.append_inj' hk rfl
      simp only [List.cons.injEq, and_true] at e
      subst e
      obtain ⟨rfl, rfl⟩ := ih hw'
      exact ⟨child_det hc hc', rfl⟩

/-- Forwards: the keys from `a` to `b`. -/
inductive Chain (D : PDesign) : Node → List Key → Node → Prop where
  | nil {a} : Chain D a [] a
  | cons {a k b ks c} : Child D a k b → Chain D b ks c → Chain D a (k :: ks) c

theorem Chain.snoc {D : PDesign} {a b c : Node} {ks : List Key} {k : Key} (h : Chain D a ks b) (hc : Child D b k c) :
    Chain D a (ks ++ [k]) c := by
  induction h with
  | nil => exact .cons hc .nil
  | cons h1 _ ih => exact .cons h1 (ih hc)

theorem way_chain {D : PDesign} {r : Hdl} {ks : List Key} {a : Node} {p : PyStr} (h : Way D r ks a p) :
    Chain D (r, D.kind r) ks a := by
  induction h with
  | root _ => exact .nil
  | step _ hc ih => exact ih.snoc hc

theorem follow_ok {D : PDesign} {R : List Hdl} : ∀ (ks : List Key) {s : PSt} {o : Nat} {x : PObj} {b : Node},
    Inv D R (fun _ => True) s → s.objs[o]? = some x → Chain D (node x) ks b →
    ∃ c y, (follow D ks o s).1 = some c ∧ (follow D ks o s).2.objs[c]? = some y ∧ node y = b
  | [], s, o, x, b, hI, hx, h => by
    cases h
    exact ⟨o, x, rfl, hx, rfl⟩
  | k :: ks, s, o, x, b, hI, hx, h => by
    cases h with
    | @cons _ _ m _ _ hc hr =>
      obtain ⟨h1, h2, h3, h4⟩ := lookup_ok hI hx k trivial
      have hs : step D s (.look o k .auto) = lookup D o x k .auto s := by simp [step, hx]
      unfold follow
      rw [hs]
      have h5 := h4 m hc
      generalize lookup D o x k .auto s = q at h1 h2 h3 h5
      obtain ⟨q1, q2⟩ := q
      cases q1 with
      | none => simp at h5
      | some c =>
        obtain ⟨y, hy, hch⟩ := h3 c rfl
        simp only at h1 hy ⊢
        exact follow_ok ks h1 hy (by rw [child_det hch hc]; exact hr)

end PathsL
open PathsL

/-- C169: the path of an object is a way to it from one of the objects the program started from: following the keys with ordinary
lookups, at any time, gives an equal object. (Objects are equal if they stand for the same handle.) -/
theorem C169_way (D : PDesign) (hD : Agree D.toDesign) (ops : List POp) (ho : Ordinary ops) (o : Nat) (x : PObj)
    (hx : (run D ops .init).objs[o]? = some x) :
    ∃ r ∈ roots ops, ∃ ks, Way D r ks (node x) x.path := by
  have hI := run_ok (G := fun _ => True) hD (fun _ _ _ _ _ => trivial) ops (init_inv D (roots ops) _) ho (fun _ h => h)
    (fun _ _ _ _ => trivial)
  obtain ⟨r, hr, ks, _, hw⟩ := hI.way o x hx
  exact ⟨r, hr, ks, hw⟩

/-- C169: see above; `more` is anything the program does later. -/
theorem C169_follow (D : PDesign) (hD : Agree D.toDesign) (ops more : List POp) (ho : Ordinary ops) (hm : Ordinary more)
    (o : Nat) (x : PObj) (hx : (run D ops .init).objs[o]? = some x) :
    ∃ r ∈ roots ops, ∃ ks, Way D r ks (node x) x.path ∧
      ∃ t, (step D (run D (ops ++ more) .init) (.root r)).1 = some t ∧
      ∃ c y, (follow D ks t (step D (run D (ops ++ more) .init) (.root r)).2).1 = some c ∧
        (follow D ks t (step D (run D (ops ++ more) .init) (.root r)).2).2.objs[c]? = some y ∧ y.hdl = x.hdl := by
  obtain ⟨r, hr, ks, hw⟩ := C169_way D hD ops ho o x hx
  have hmem : r ∈ roots (ops ++ more) := by simp [roots] at hr ⊢; exact .inl hr
  have hI := run_ok (G := fun _ => True) hD (fun _ _ _ _ _ => trivial) (ops ++ more) (init_inv D (roots (ops ++ more)) _)
    (fun o k h => by
      rcases List.mem_append.mp h with h | h
      · exact ho o k h
      · exact hm o k h) (fun _ h => h) (fun _ _ _ _ => trivial)
  have hu : D.kind r ≠ .unsupported := by
    clear hmem hx hI
    generalize node x = a at hw
    generalize x.path = p at hw
    induction hw with
    | root h => exact h
    | step _ _ ih => exact ih
  obtain ⟨h1, h2, h3⟩ := make_inv hI r none fun hu => ⟨r, hmem, [], by simp, .root hu⟩
  refine ⟨r, hr, ks, hw, ?_⟩
  simp only [step]
  generalize make D r none (run D (ops ++ more) .init) = q at h1 h2 h3
  obtain ⟨q1, q2⟩ := q
  cases q1 with
  | none => simpa using h3 hu
  | some t =>
    obtain ⟨y, hy, e, _⟩ := h2 t rfl
    obtain ⟨c, z, f1, f2, f3⟩ := follow_ok ks h1 hy (by rw [e]; exact way_chain hw)
    exact ⟨t, rfl, c, z, f1, f2, congrArg Prod.fst f3⟩

/-- C169: objects with the same path are equal. False: see the counterexample. -/
def C169_unique_full : Prop := ∀ (D : PDesign), Agree D.toDesign → ∀ ops : List POp, Ordinary ops →
  (∀ r ∈ roots ops, ∀ r' ∈ roots ops, D.name r = D.name r' → r = r') → ∀ (o o' : Nat) (x x' : PObj),
  (run D ops .init).objs[o]? = some x → (run D ops .init).objs[o']? = some x' → x.path = x'.path → x.hdl = x'.hdl

/-- C169: objects with the same path are equal, if the names that are looked up or listed are identifiers: without `.`, `:`, `[` and
backslashes, or between backslashes. -/
theorem C169_unique_partial (D : PDesign) (hD : Agree D.toDesign) (ops : List POp) (ho : Ordinary ops)
    (hr : ∀ r ∈ roots ops, ∀ r' ∈ roots ops, D.name r = D.name r' → r = r') (hri : ∀ r ∈ roots ops, Ident (D.name r))
    (hk : ∀ o n d, POp.look o (.name n) d ∈ ops → Ident n)
    (hl : ∀ h c, D.kind h = .module → c ∈ D.children h → Ident (D.name c)) (o o' : Nat) (x x' : PObj)
    (hx : (run D ops .init).objs[o]? = some x) (hx' : (run D ops .init).objs[o']? = some x') (he : x.path = x'.path) :
    x.hdl = x'.hdl ∧ x.cls = x'.cls := by
  have hL : ListedG D IdentKey := by
    intro h c k hc hs n e
    subst e
    unfold subKey at hs
    split at hs
    · rename_i hm
      cases hs
      exact hl h c hm hc
    · rename_i hm
      cases hg : Hier.genKey (D.name h) (D.name c) with
      | none => simp [hg] at hs
      | some i => simp [hg] at hs
    · cases hs
  have hI := run_ok (G := IdentKey) hD hL ops (init_inv D (roots ops) _) ho (fun _ h => h)
    (fun o k d h n e => hk o n d (by rw [← e]; exact h))
  obtain ⟨r, h1, ks, h2, hw⟩ := hI.way o x hx
  obtain ⟨r', h1', ks', h2', hw'⟩ := hI.way o' x' hx'
  obtain ⟨l, e1, e2⟩ := way_text hw
  obtain ⟨l', e1', e2'⟩ := way_text hw'
  rw [e2, e2'] at he
  obtain ⟨f1, f2⟩ := ident_unique (hri r h1) (hri r' h1') (rest_stop l) (rest_stop l') he
  have := hr r h1 r' h1' f1
  subst this
  have hks : ks = ks' := by
    rw [← e1, ← e1']
    exact rest_inj l l' (fun y hy => h2 _ (by rw [← e1]; exact List.mem_map_of_mem hy))
      (fun y hy => h2' _ (by rw [← e1']; exact List.mem_map_of_mem hy)) f2
  subst hks
  have := (way_det hw hw').1
  exact ⟨congrArg Prod.fst this, congrArg Prod.snd this⟩

/-- C169: the path of an object does not depend on what the program did before. False: see the counterexample. -/
def C169_history_full : Prop := ∀ (D : PDesign), Agree D.toDesign → ∀ ops ops' : List POp, Ordinary ops → Ordinary ops' →
  ∀ (o o' : Nat) (x x' : PObj), (run D ops .init).objs[o]? = some x → (run D ops' .init).objs[o']? = some x' →
  x.hdl = x'.hdl → x.path = x'.path

/-- C169: the path of an object does not depend on what the program did before, if of the keys the program uses and the simulator
lists (`G`) one only leads to an object, and no key leads to one the program gets from a raw handle. -/
theorem C169_history_partial (D : PDesign) (hD : Agree D.toDesign) (G : Key → Prop) (ops ops' : List POp)
    (ho : Ordinary ops) (ho' : Ordinary ops') (hG : ∀ o k d, POp.look o k d ∈ ops ++ ops' → G k) (hL : ListedG D G)
    (h1 : ∀ h h' k k' b, G k → G k' → Child D (h, D.kind h) k b → Child D (h', D.kind h') k' b → h = h' ∧ k = k')
    (h2 : ∀ r ∈ roots (ops ++ ops'), ∀ a k, G k → ¬ Child D a k (r, D.kind r)) (o o' : Nat) (x x' : PObj)
    (hx : (run D ops .init).objs[o]? = some x) (hx' : (run D ops' .init).objs[o']? = some x')
    (hh : x.hdl = x'.hdl) (hc : x.cls = x'.cls) : x.path = x'.path := by
  have hI := run_ok hD hL ops (init_inv D (roots (ops ++ ops')) G) ho (fun r h => by simp [roots] at h ⊢; exact .inl h)
    (fun o k d h => hG o k d (by simp [h]))
  have hI' := run_ok hD hL ops' (init_inv D (roots (ops ++ ops')) G) ho' (fun r h => by simp [roots] at h ⊢; exact .inr h)
    (fun o k d h => hG o k d (by simp [h]))
  obtain ⟨r, g1, ks, g2, hw⟩ := hI.way o x hx
  obtain ⟨r', g1', ks', g2', hw'⟩ := hI'.way o' x' hx'
  have hn : node x = node x' := by simp [node, hh, hc]
  rw [hn] at hw
  generalize x.path = p at hw ⊢
  generalize x'.path = p' at hw' ⊢
  generalize node x' = b at hw hw'
  clear hn hx hx' hI hI' hh hc
  induction hw generalizing ks' p' with
  | root hu =>
    generalize hb : (r, D.kind r) = b at hw'
    cases hw' with
    | root _ => cases hb; rfl
    | step _ hc => subst hb; exact absurd hc (h2 r g1 _ _ (g2' _ (by simp)))
  | @step ks a p k b hw hc ih =>
    cases hw' with
    | root _ => exact absurd hc (h2 r' g1' _ _ (g2 _ (by simp)))
    | @step ks2 a2 p2 k2 _ hw2 hc2 =>
      have e1 := child_kind hw hc
      have e2 := child_kind hw2 hc2
      rw [e1] at hc
      rw [e2] at hc2
      obtain ⟨e3, rfl⟩ := h1 _ _ _ _ _ (g2 k (by simp)) (g2' k2 (by simp)) hc hc2
      have e4 : a = a2 := by rw [e1, e2, e3]
      subst e4
      rw [ih (fun k h => g2 k (by simp [h])) ks2 (fun k h => g2' k (by simp [h])) p2 hw2]

namespace PathsEx

/-- A scope `top` with an array `x` and a signal named `x[0]`, which some simulators show without the backslashes of an escaped
identifier. -/
def U : PDesign where
  kind h := if h = 0 then .module else if h = 1 then .array else .leaf
  name h := match h with | 0 => "top".toList | 1 => "x".toList | _ => "x[0]".toList
  children h := if h = 0 then [1, 2] else []
  byName h n := if h ≠ 0 then none else if n = "x".toList then some 1 else if n = "x[0]".toList then some 2 else none
  native _ _ _ := none
  byIndex h i := if h = 1 ∧ i = 0 then some 3 else none
  range _ := []
  pkg _ := false

theorem agreeU : Agree U.toDesign := by
  intro h k c ⟨hc, hk⟩
  by_cases h0 : h = 0
  · subst h0
    have hc' : c ∈ [1, 2] := hc
    rcases List.mem_cons.mp hc' with rfl | hc'
    · simp only [subKey, U] at hk; cases hk; decide +kernel
    · rw [List.mem_singleton.mp hc'] at hk ⊢
      simp only [subKey, U] at hk; cases hk; decide +kernel
  · simp [U, h0] at hc

/-- Array and signal, each looked up. -/
def opsU : List POp := [.root 0, .look 0 (.name "x".toList) .auto, .look 1 (.idx 0) .auto, .look 0 (.name "x[0]".toList) .auto]

/-- The design of `Props/Hierarchy` that ignores case, as it is in VHDL. -/
def V : PDesign := { HierarchyEx.D with pkg := fun _ => false }

/-- The design of `Props/Hierarchy` with exact spelling. -/
def E : PDesign := { HierarchyEx.E with pkg := fun _ => false }

/-- Lookups in it, with a loop and its blocks. -/
def opsE : List POp := [.root 0, .look 0 (.name "g".toList) .auto, .list 0, .list 1, .look 1 (.idx 1) .auto]

end PathsEx
open PathsEx

/-- C169: an element of an array and a signal whose name looks like it have the same path. -/
theorem C169_unique_counterexample : ¬ C169_unique_full := by
  intro h
  have := h U agreeU opsU (by intro o k; simp [opsU]) (by intro r hr r' hr' _; simp [opsU, roots] at hr hr'; rw [hr, hr'])
    2 3 ⟨3, .leaf, "top.x[0]".toList, [], false⟩ ⟨2, .leaf, "top.x[0]".toList, [], false⟩ (by decide +kernel) (by decide +kernel) rfl
  revert this
  decide

/-- C169: where case is ignored, the spelling of the first lookup is in the path for good. -/
theorem C169_history_counterexample : ¬ C169_history_full := by
  intro h
  have := h V HierarchyEx.agreeD [.root 0, .look 0 (.name "a".toList) .auto] [.root 0, .look 0 (.name "A".toList) .auto]
    (by intro o k; simp) (by intro o k; simp) 1 1 ⟨1, .leaf, "top.a".toList, [], false⟩ ⟨1, .leaf, "top.A".toList, [], false⟩
    (by decide +kernel) (by decide +kernel) rfl
  revert this
  decide

/-- The hypotheses hold of a design with a generate loop. -/
example : (∀ r ∈ roots opsE, Ident (E.name r)) ∧ (∀ o n d, POp.look o (.name n) d ∈ opsE → Ident n) ∧
    ((run E opsE .init).objs.map fun x => (x.hdl, String.ofList x.path)) =
      [(0, "top"), (3, "top.g"), (1, "top.a"), (2, "top.b"), (4, "top.g[1]"), (5, "top.g[0]")] := by
  refine ⟨?_, ?_, by decide +kernel⟩
  · intro r hr
    simp [opsE, roots] at hr
    subst hr
    exact .inl (by decide +kernel)
  · intro o n d h
    simp [opsE] at h
    rw [h.2.1]
    exact .inl (by decide)

/-- In that design each object has one parent and one key. -/
example : (∀ h h' k k' b, Child E (h, E.kind h) k b → Child E (h', E.kind h') k' b → h = h' ∧ k = k') ∧
    ∀ a k, ¬ Child E a k (0, E.kind 0) := by
  have key : ∀ h k b, answer E.toDesign (E.kind h) h k = some b →
      (h = 0 ∧ b ∈ [1, 2, 3, 6] ∧ k = .name (E.name b)) ∨ (h = 3 ∧ ((k = .idx 1 ∧ b = 4) ∨ (k = .idx 0 ∧ b = 5))) := by
    intro h k b e
    by_cases h0 : h = 0
    · subst h0
      obtain ⟨h1, h2⟩ := HierarchyEx.spellE k b e
      exact .inl ⟨rfl, h1, (Option.some.inj h2).symm⟩
    · right
      cases k with
      | name n => simp [answer, E, HierarchyEx.E, HierarchyEx.D, h0] at e
      | idx i =>
        simp only [answer] at e
        split at e
        · simp only [E, HierarchyEx.E, HierarchyEx.D] at e
          split at e
          · rename_i hh; cases e; exact ⟨hh.1, .inl ⟨by rw [hh.2], rfl⟩⟩
          · split at e
            · rename_i hh; cases e; exact ⟨hh.1, .inr ⟨by rw [hh.2], rfl⟩⟩
            · cases e
        · cases e
  constructor
  · intro h h' k k' b h1 h2
    rcases key _ _ _ h1.1 with ⟨e1, e2, e3⟩ | ⟨e1, e2⟩ <;> rcases key _ _ _ h2.1 with ⟨f1, f2, f3⟩ | ⟨f1, f2⟩
    · exact ⟨by rw [e1, f1], by rw [e3, f3]⟩
    · rcases f2 with ⟨_, f2⟩ | ⟨_, f2⟩ <;> rw [f2] at e2 <;> simp at e2
    · rcases e2 with ⟨_, e2⟩ | ⟨_, e2⟩ <;> rw [e2] at f2 <;> simp at f2
    · refine ⟨by rw [e1, f1], ?_⟩
      rcases e2 with ⟨e2, e3⟩ | ⟨e2, e3⟩ <;> rcases f2 with ⟨f2, f3⟩ | ⟨f2, f3⟩
      · rw [e2, f2]
      · rw [e3] at f3; simp at f3
      · rw [e3] at f3; simp at f3
      · rw [e2, f2]
  · intro a k h
    have h0 := h.1
    obtain ⟨ah, ac⟩ := a
    simp only [E, HierarchyEx.E, HierarchyEx.D] at h0
    cases k with
    | name n =>
      simp only [answer] at h0
      split at h0
      · split at h0
        · cases h0
        · split at h0 <;> cases h0
      · cases h0
    | idx i =>
      simp only [answer] at h0
      split at h0
      · split at h0
        · cases h0
        · split at h0 <;> cases h0
      · cases h0

/-- An object in a package. -/
example : ((run { E with pkg := fun h => h == 0 } opsE .init).objs.map fun x => String.ofList x.path) =
    ["top", "top::g", "top::a", "top::b", "top::g[1]", "top::g[0]"] := by decide +kernel

end Verif
