import Verif.Spec.Packages
/-!
# C183: `cocotb.packages`
-/
namespace Verif
open Spec Gpi Packages

namespace PackagesL

/-- The object of a package. -/
def pkgObj (j : Nat) (p : H × Text) : Obj := { impl := j, hdl := p.1, type := .package, name := p.2, full := p.2 ++ [58, 58] }

theorem pkgFull_both (n : Text) (f : Text) (hp : 58 ∉ n) (hf : f = n ∨ f = n ++ [58, 58]) (hl : f = n → 2 ≤ n.length) :
    pkgFull f = some (n ++ [58, 58]) := by
  unfold pkgFull
  rcases hf with rfl | rfl
  · rw [if_neg (Nat.not_lt.2 (hl rfl)), if_neg]
    intro h
    exact hp (List.mem_of_mem_drop (by rw [h]; exact List.mem_cons_self))
  · have hlen : (n ++ [58, 58]).length = n.length + 2 := List.length_append
    rw [hlen, if_neg (by omega), Nat.add_sub_cancel, List.drop_left, if_pos rfl]

theorem items_aux (V : Vpi) (j : Nat) : ∀ hs : List H,
    (∀ h ∈ hs, ∀ n, V.type h = some .package → V.name h = some n → pkgFull ((V.fullName h).getD []) = some (n ++ [58, 58])) →
    ((hs.filter fun h => V.type h == some .package).filterMap fun h =>
      (V.name h).map fun n =>
        match pkgFull ((V.fullName h).getD []) with
        | some f => Item.native { impl := j, hdl := h, type := .package, name := n, full := f }
        | none => .raises) =
    (hs.filterMap fun h => if V.type h = some .package then (V.name h).map fun n => (h, n) else none).map fun p => .native (pkgObj j p)
  | [], _ => rfl
  | h :: hs, hf => by
    have ih := items_aux V j hs fun x hx => hf x (List.mem_cons_of_mem _ hx)
    by_cases ht : V.type h = some .package
    · rw [List.filter_cons_of_pos (by rw [ht]; rfl)]
      cases hn : V.name h with
      | none =>
        rw [List.filterMap_cons_none (by rw [hn]; rfl), List.filterMap_cons_none (by rw [if_pos ht, hn]; rfl)]
        exact ih
      | some n =>
        have e := hf h List.mem_cons_self n ht hn
        rw [List.filterMap_cons_some (b := .native (pkgObj j (h, n))) (by rw [hn, e]; rfl),
          List.filterMap_cons_some (b := (h, n)) (by rw [if_pos ht, hn]; rfl), ih]
        rfl
    · rw [List.filter_cons_of_neg (by simpa using ht), List.filterMap_cons_none (a := h) (l := hs) (by exact if_neg ht)]
      exact ih

theorem named_of {V : Vpi} {h : H} {n : Text} (hm : h ∈ V.instances.getD []) (ht : V.type h = some .package) (hn : V.name h = some n) :
    (h, n) ∈ named V :=
  List.mem_filterMap.2 ⟨h, hm, by rw [if_pos ht, hn]; rfl⟩

theorem items (V : Vpi) (j : Nat) (U : Usual V) (hl : ∀ p ∈ named V, V.fullName p.1 = some p.2 → 2 ≤ p.2.length) :
    packageItems V j = (named V).map fun p => .native (pkgObj j p) := by
  unfold packageItems
  refine items_aux V j _ fun h hm n ht hn => ?_
  have hp := named_of hm ht hn
  refine pkgFull_both n _ (U.plain _ hp) ?_ ?_
  · rcases U.full _ hp with h1 | h1
    · left; rw [h1]; rfl
    · right; rw [h1]; rfl
  · rcases U.full _ hp with h1 | h1
    · intro _; exact hl _ hp h1
    · intro e
      rw [h1] at e
      have := congrArg List.length e
      rw [Option.getD_some, List.length_append] at this
      simp at this

theorem firstIter_vpi {D : List Impl} {c : Flavor} {V : Vpi} {j : Nat} (h : WithVpi D c V j) :
    firstIter D .packages = some (j, .items (packageItems V j)) := by
  obtain ⟨h1, h2⟩ := h
  have hj : j < D.length := (List.getElem?_eq_some_iff.1 h1).1
  unfold firstIter
  have e : List.range D.length = List.range j ++ (j :: (List.range' (j + 1) (D.length - (j + 1)))) := by
    rw [List.range_eq_range', List.range_eq_range']
    have : D.length = j + (1 + (D.length - (j + 1))) := by omega
    conv => lhs; rw [this]
    rw [← List.range'_append_1, Nat.zero_add, ← List.range'_append_1]
    rfl
  rw [e, List.findSome?_append]
  rw [(List.findSome?_eq_none_iff (l := List.range j)).2, Option.none_or, List.findSome?_cons, h1]
  · rfl
  · intro i hi
    have hi := List.mem_range.1 hi
    have := List.getElem?_eq_getElem (Nat.lt_trans hi hj)
    rw [this]
    dsimp only
    rw [if_pos (h2 i _ hi this)]

/-- All packages, with the numbers of their handles. -/
theorem drain_all (D : List Impl) (k j : Nat) : ∀ (ps : List (H × Text)) (s : St),
    s.iters[k]? = some (some ⟨j, none, ps.map fun p => .native (pkgObj j p)⟩) →
    (ps.map (·.2)).Nodup → (∀ p ∈ ps, dictGet s.map (p.2 ++ [58, 58]) = none) →
    ∃ s', drain D k (ps.length + 1) s = some (s', (List.range' s.objs.length ps.length)) ∧
      s'.objs = s.objs ++ ps.map (pkgObj j) ∧ s'.freed = s.freed
  | [], s, hi, _, _ => by
    refine ⟨{ s with iters := s.iters.set k none }, ?_, (List.append_nil _).symm, rfl⟩
    unfold drain exec
    dsimp only
    rw [hi]
    rfl
  | p :: ps, s, hi, hd, hm => by
    have hk := (List.getElem?_eq_some_iff.1 hi).1
    have hst : store s (pkgObj j p) =
        ({ s with objs := s.objs ++ [pkgObj j p], map := dictSet s.map (p.2 ++ [58, 58]) s.objs.length }, s.objs.length) := by
      unfold store
      dsimp only
      have : dictGet s.map (pkgObj j p).full = none := hm p List.mem_cons_self
      rw [this]
      rfl
    let s1 : St := { objs := s.objs ++ [pkgObj j p], freed := s.freed, map := dictSet s.map (p.2 ++ [58, 58]) s.objs.length,
                     iters := s.iters.set k (some ⟨j, none, ps.map fun p => .native (pkgObj j p)⟩) }
    have hx : exec D s (.next k) = some (s1, .handle s.objs.length) := by
      unfold exec
      dsimp only
      rw [hi]
      have hnl : ∀ q, nextLoop D q j ((p :: ps).map fun p => .native (pkgObj j p)) =
          some (some (ps.map fun p => .native (pkgObj j p), pkgObj j p)) := fun _ => rfl
      dsimp only
      rw [hnl]
      dsimp only
      rw [hst]
    have hd' := List.nodup_cons.1 hd
    obtain ⟨s', h1, h2, h3⟩ := drain_all D k j ps s1 (by
        show (s.iters.set k _)[k]? = _
        rw [List.getElem?_set_self hk]) hd'.2 (by
        intro q hq
        show dictGet (dictSet s.map (p.2 ++ [58, 58]) s.objs.length) _ = none
        rw [dictGet_set, if_neg, hm q (List.mem_cons_of_mem _ hq)]
        intro e
        exact hd'.1 (List.mem_map.2 ⟨q, hq, (List.append_cancel_right e).symm⟩))
    have hl : s1.objs.length = s.objs.length + 1 := List.length_append
    refine ⟨s', ?_, ?_, h3⟩
    · show drain D k ((ps.length + 1) + 1) s = _
      unfold drain
      rw [hx]
      dsimp only
      rw [h1, hl]
      rfl
    · rw [h2]
      show s.objs ++ [pkgObj j p] ++ _ = _
      rw [List.append_assoc]
      rfl

theorem dictSet_new (d : List (Text × Nat)) (n : Text) (r : Nat) (h : n ∉ d.map (·.1)) : dictSet d n r = d ++ [(n, r)] := by
  induction d with
  | nil => rfl
  | cons x d ih =>
    obtain ⟨m, q⟩ := x
    have h1 : m ≠ n := fun e => h (e ▸ List.mem_cons_self)
    show (if m = n then (m, r) :: d else (m, q) :: dictSet d n r) = _
    rw [if_neg h1, ih fun hm => h (List.mem_cons_of_mem _ hm)]
    rfl

theorem dictOf_all (s : St) (j : Nat) : ∀ (ps : List (H × Text)) (b : Nat) (d : List (Text × Nat)),
    (∀ i p, ps[i]? = some p → s.objs[b + i]? = some (pkgObj j p)) →
    (d.map (·.1) ++ ps.map (·.2)).Nodup →
    dictOf s (List.range' b ps.length) d = d ++ (ps.map (·.2)).zip (List.range' b ps.length)
  | [], b, d, _, _ => (List.append_nil _).symm
  | p :: ps, b, d, ho, hd => by
    have h0 : s.objs[b]? = some (pkgObj j p) := ho 0 p rfl
    have hn : nameOf s b = p.2 := by
      unfold nameOf
      rw [h0]
      rfl
    show dictOf s (List.range' (b + 1) ps.length) (dictSet d (nameOf s b) b) = _
    have hp : p.2 ∉ d.map (·.1) := by
      intro hm
      exact (List.nodup_append.1 hd).2.2 _ hm _ List.mem_cons_self rfl
    rw [hn, dictSet_new d p.2 b hp, dictOf_all s j ps (b + 1) _ (by
        intro i q hq
        have := ho (i + 1) q hq
        rw [← this]
        congr 1
        omega) (by
        rw [List.map_append, List.append_assoc]
        exact hd)]
    rw [List.append_assoc]
    rfl

theorem dictGet_zip : ∀ (ns : List Text) (b : Nat), ns.Nodup → ∀ i n, ns[i]? = some n →
    dictGet (ns.zip (List.range' b ns.length)) n = some (b + i)
  | [], _, _, i, n, h => by cases i <;> cases h
  | m :: ns, b, hd, 0, n, h => by
    injection h with h
    show (if m = n then some b else _) = _
    rw [if_pos h]
    rfl
  | m :: ns, b, hd, i + 1, n, h => by
    have h' : ns[i]? = some n := h
    have hd' := List.nodup_cons.1 hd
    show (if m = n then some b else dictGet (ns.zip (List.range' (b + 1) ns.length)) n) = _
    have hmn : m ≠ n := fun e => hd'.1 (by rw [e]; exact List.mem_of_getElem? h')
    rw [if_neg hmn, dictGet_zip ns (b + 1) hd'.2 i n h']
    congr 1
    omega

end PackagesL
open PackagesL

/-- C183 in full: `cocotb.packages` has each package of the design as an attribute, and nothing else. -/
def C183_packages_full : Prop :=
  ∀ (D : List Impl) (c : Flavor) (V : Vpi) (j : Nat) (s : St), WithVpi D c V j → Usual V → Fresh V s →
    ∃ s' ns, process D s = some (s', ns) ∧ Shows V s' ns

/-- The code violates it: for a package with a name of one character that the simulator gives without `::`, `std::string::compare` throws
an exception that nothing catches, and the simulation ends. -/
theorem C183_packages_counterexample : ¬ C183_packages_full := by
  intro h
  obtain ⟨s', ns, h1, -⟩ := h [vpiImpl ⟨false, false⟩ (packageVpi (nm "p")) 0] _ (packageVpi (nm "p")) 0 St.init
    ⟨rfl, by intro i I hi; cases hi⟩
    ⟨by decide +kernel, by decide +kernel, by decide +kernel⟩
    ⟨by decide +kernel, by decide +kernel⟩
  have h2 : process [vpiImpl ⟨false, false⟩ (packageVpi (nm "p")) 0] St.init = none := by decide +kernel
  rw [h2] at h1
  cases h1

/-- C183 (partial): it has if packages that the simulator gives without `::` have names of two characters or more. -/
theorem C183_packages_partial (D : List Impl) (c : Flavor) (V : Vpi) (j : Nat) (s : St) (hD : WithVpi D c V j) (U : Usual V) (F : Fresh V s)
    (hl : ∀ p ∈ named V, V.fullName p.1 = some p.2 → 2 ≤ p.2.length) :
    ∃ s' ns, process D s = some (s', ns) ∧ Shows V s' ns := by
  let s1 : St := { s with iters := s.iters ++ [some ⟨j, none, (named V).map fun p => .native (pkgObj j p)⟩] }
  have hx : exec D s (.iterate none .packages) = some (s1, .iter s.iters.length) := by
    unfold exec
    dsimp only
    rw [if_pos (Or.inl rfl), firstIter_vpi hD, items V j U hl]
    rfl
  have hi : s1.iters[s.iters.length]? = some (some ⟨j, none, (named V).map fun p => .native (pkgObj j p)⟩) := by
    show (s.iters ++ [_])[s.iters.length]? = _
    rw [List.getElem?_append_right (Nat.le_refl _), Nat.sub_self]
    rfl
  obtain ⟨s', h1, h2, h3⟩ := drain_all D s.iters.length j (named V) s1 hi U.distinct F.map
  have hc : calls s1 s.iters.length = (named V).length + 1 := by
    unfold calls
    rw [hi]
    dsimp only
    rw [List.length_map]
  have ho : ∀ i p, (named V)[i]? = some p → s'.objs[s.objs.length + i]? = some (pkgObj j p) := by
    intro i p hp
    rw [h2, List.getElem?_append_right (Nat.le_add_right _ _)]
    show ((named V).map (pkgObj j))[s.objs.length + i - s.objs.length]? = _
    rw [Nat.add_sub_cancel_left, List.getElem?_map, hp]
    rfl
  refine ⟨s', ((named V).map (·.2)).zip (List.range' s.objs.length (named V).length), ?_, ?_, ?_⟩
  · unfold process
    rw [hx]
    dsimp only
    rw [hc, h1, Option.map_some]
    dsimp only
    have := dictOf_all s' j (named V) s.objs.length [] ho (by simpa using U.distinct)
    have hb : s1.objs.length = s.objs.length := rfl
    rw [hb, this]
    rfl
  · rw [List.map_fst_zip (by rw [List.length_map, List.length_range']; exact Nat.le_refl _)]
  · intro p hp
    obtain ⟨i, hi⟩ := List.mem_iff_getElem?.1 hp
    have hlt : i < (named V).length := (List.getElem?_eq_some_iff.1 hi).1
    refine ⟨s.objs.length + i, pkgObj j p, ?_, ?_, rfl, rfl, rfl, rfl⟩
    · have := dictGet_zip ((named V).map (·.2)) s.objs.length U.distinct i p.2 (by rw [List.getElem?_map, hi]; rfl)
      rw [List.length_map] at this
      exact this
    · unfold St.get
      rw [if_neg, ho i p hi]
      rw [h3]
      intro hf
      have : s.objs.length + i < s.objs.length := F.freed _ hf
      omega

example : Usual (packageVpi (nm "p::")) ∧ Fresh (packageVpi (nm "p::")) St.init ∧ named (packageVpi (nm "p::")) = [(0, nm "p")] ∧
    (∀ p ∈ named (packageVpi (nm "p::")), (packageVpi (nm "p::")).fullName p.1 = some p.2 → 2 ≤ p.2.length) :=
  ⟨⟨by decide +kernel, by decide +kernel, by decide +kernel⟩, ⟨by decide +kernel, by decide +kernel⟩, by decide +kernel, by decide +kernel⟩

/-- **C183.** In a simulation without an implementation that knows packages (VHPI, FLI), `cocotb.packages` is empty. -/
theorem C183_none (D : List Impl) (s : St) (h : ∀ I ∈ D, I.iterate none .packages = .null) : process D s = some (s, []) := by
  have : firstIter D .packages = none := by
    unfold firstIter
    rw [List.findSome?_eq_none_iff]
    intro i hi
    have := List.getElem?_eq_getElem (List.mem_range.1 hi)
    rw [this]
    dsimp only
    rw [if_pos (h _ (List.mem_of_getElem? this))]
  unfold process exec
  dsimp only
  rw [if_pos (Or.inl rfl), this]

/-- An implementation that knows nothing. -/
def noImpl : Impl := ⟨fun _ _ => none, fun _ _ => none, fun _ _ => none, fun _ => none, fun _ _ => .null⟩

example : ∀ I ∈ [noImpl, noImpl], I.iterate none .packages = .null := by
  intro I h
  simp only [List.mem_cons, List.not_mem_nil, or_false, or_self] at h
  rw [h]
  rfl

/-- Packages `ab`, without `::`, and `p`, with it, a module, and a package without a name. -/
def twoPackages : Vpi :=
  { noVpi with
    type := fun h => if h = 1 then some .module else some .package
    name := fun h => if h = 0 then some (nm "ab") else if h = 1 then some (nm "top") else if h = 2 then some (nm "p") else none
    fullName := fun h => if h = 0 then some (nm "ab") else if h = 2 then some (nm "p::") else some (nm "top")
    instances := some [0, 1, 3, 2] }

example : WithVpi [noImpl, vpiImpl ⟨false, true⟩ twoPackages 1] ⟨false, true⟩ twoPackages 1 ∧ Usual twoPackages ∧ Fresh twoPackages St.init ∧
    (∀ p ∈ named twoPackages, twoPackages.fullName p.1 = some p.2 → 2 ≤ p.2.length) ∧
    (process [noImpl, vpiImpl ⟨false, true⟩ twoPackages 1] St.init).map (·.2) = some [(nm "ab", 0), (nm "p", 1)] := by
  refine ⟨⟨rfl, ?_⟩, ⟨by decide +kernel, by decide +kernel, by decide +kernel⟩, ⟨by decide +kernel, by decide +kernel⟩, by decide +kernel,
    by decide +kernel⟩
  intro i I hi h
  have : i = 0 := by omega
  subst this
  injection h with h
  subst h
  rfl

end Verif
