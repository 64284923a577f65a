import Verif.Spec.Libs
import Verif.Lemmas.Life
import Verif.Lemmas.RunnerEnv

/-!
# C148 to C150: the libraries that are loaded
-/
namespace Verif.Libs

open Verif.Life Verif.LifeSpec Verif.LibsSpec
open Verif.Runner (Sim)

theorem offers_table : ∀ o ∈ offers, ∀ nt msvc : Bool, (msvc = true → nt = true) → (nt = true → o.2.2.2 = true) →
    o.1 ∈ interfaces ∧ o.2.1 ∈ simulators ∧ lower o.1 = o.1 ∧ lower o.2.1 = o.2.1 ∧
    libName nt msvc o.1 o.2.1 = (if msvc then [] else "lib".toList) ++ o.2.2.1 ++ (if nt then ".dll".toList else ".so".toList) ∧
    libName nt msvc o.1 o.2.1 ∈ (extensions nt).map (extFilename nt msvc) ∧
    (∀ f, entryFunction o.1 o.2.1 = some f → f = startFunction o.1) := by
  decide +kernel

theorem toLower_toLower (c : Char) : c.toLower.toLower = c.toLower := by
  unfold Char.toLower
  by_cases h : c.val ≥ 'A'.val ∧ c.val ≤ 'Z'.val
  · simp only [h, and_self, dite_true]
    rw [dif_neg]
    intro h'
    have h1 := h.1; have h2 := h.2; have h3 := h'.1; have h4 := h'.2
    simp only [ge_iff_le, UInt32.le_iff_toNat_le, UInt32.toNat_add] at h1 h2 h3 h4
    have a : 'A'.val.toNat = 65 := rfl
    have b : 'Z'.val.toNat = 90 := rfl
    have d : ('a'.val - 'A'.val).toNat = 32 := rfl
    rw [a] at h1 h3; rw [b] at h2 h4; rw [d] at h3 h4
    omega
  · simp only [h, dite_false]

theorem lower_lower (t : PyStr) : lower (lower t) = lower t := by
  unfold lower
  rw [List.map_map]
  apply List.map_congr_left
  intro c _
  exact toLower_toLower c

/-- What is known of an interface that is offered. -/
theorem offered {I : Install} {i s lib : PyStr} (hI : Valid I) (h : Offered I.nt i s lib) :
    i ∈ interfaces ∧ s ∈ simulators ∧ lower i = i ∧ lower s = s ∧
    I.libsDir ++ '/' :: libName I.nt I.msvc i s = file I lib ∧ file I lib ∈ installed I ∧
    (∀ f, entryFunction i s = some f → f = startFunction i) := by
  obtain ⟨o, ho, rfl, rfl, rfl, hnt⟩ := h
  obtain ⟨h1, h2, h3, h4, h5, h6, h7⟩ := offers_table o ho I.nt I.msvc hI hnt
  have hf : I.libsDir ++ '/' :: libName I.nt I.msvc o.1 o.2.1 = file I o.2.2.1 := by
    rw [h5]; simp [file]
  refine ⟨h1, h2, h3, h4, hf, ?_, h7⟩
  rw [← hf]
  obtain ⟨n, hn, he⟩ := List.mem_map.1 h6
  exact List.mem_map.2 ⟨n, hn, by rw [he]⟩

theorem path_of {I : Install} {i s lib : PyStr} (hI : Valid I) (h : Offered I.nt i s lib) {i' : PyStr} (hi : lower i' = i) :
    libNamePath I i' s = .ok (file I lib) := by
  obtain ⟨h1, h2, h3, h4, h5, _, _⟩ := offered hI h
  simp [libNamePath, hi, h1, h2, h4, h5]

theorem entry_of {I : Install} {i s lib i' s' : PyStr} (hI : Valid I) (h : Offered I.nt i s lib) (hi : lower i' = i)
    (hs : lower s' = s) : ∃ arg, libEntry I i' s' = .ok arg ∧ Told I s i arg := by
  obtain ⟨_, _, h3, h4, _, _, h7⟩ := offered hI h
  have hp := path_of hI h h3
  unfold libEntry
  rw [hi, hs, hp]
  cases he : entryFunction i s with
  | none => exact ⟨_, rfl, lib, none, h, .plain _, .inl rfl⟩
  | some f => exact ⟨_, rfl, lib, some f, h, .colon _ _, .inr (by rw [h7 f he])⟩

/-! ## What is added by `GPI_EXTRA` -/

theorem join_eq (sep : Char) : ∀ l : List PyStr, join sep l = joinWith sep l
  | [] => rfl
  | [_] => rfl
  | t :: u :: l => by rw [join, joinWith, join_eq sep (u :: l)] <;> simp

theorem offers_no_comma : ∀ o ∈ offers, ',' ∉ o.2.2.1 ∧ ',' ∉ gpiFunction o.1 ∧ ':' ∉ gpiFunction o.1 := by
  decide +kernel

theorem file_no_comma {I : Install} (hd : ',' ∉ I.libsDir) {i s lib : PyStr} (h : Offered I.nt i s lib) :
    (⟨file I lib, gpiFunction i⟩ : Extra).Writable := by
  obtain ⟨o, ho, rfl, rfl, rfl, _⟩ := h
  obtain ⟨h1, h2, h3⟩ := offers_no_comma o ho
  refine ⟨?_, h2, h3⟩
  have hp : ∀ b : Bool, ',' ∉ (if b then [] else "lib".toList) := by decide
  have hx : ∀ b : Bool, ',' ∉ (if b then ".dll".toList else ".so".toList) := by decide
  have := hp I.msvc
  have := hx I.nt
  simp only [file, List.mem_append]
  rintro ((((h | h) | h) | h) | h)
  · exact hd h
  · simp at h
  · exact hp _ h
  · exact h1 h
  · exact hx _ h

theorem adds_none (I : Install) (s : PyStr) : Adds I s [] none := ⟨[], rfl, by simp, by simp [entryPoint]⟩

theorem adds_list {I : Install} (hd : ',' ∉ I.libsDir) {s : PyStr} (ls : List (PyStr × PyStr))
    (h : ∀ p ∈ ls, Offered I.nt p.1 s p.2) :
    Adds I s (ls.map (·.1)) (some (join ',' (ls.map fun p => file I p.2 ++ ':' :: gpiFunction p.1))) := by
  refine ⟨ls.map fun p => ⟨file I p.2, gpiFunction p.1⟩, by simp, ?_, ?_⟩
  · intro p hp
    rw [List.zip_map'] at hp
    obtain ⟨q, hq, rfl⟩ := List.mem_map.1 hp
    exact ⟨q.2, h q hq, rfl, rfl⟩
  · intro L users hl
    have hw : ∀ x ∈ ls.map (fun p => (⟨file I p.2, gpiFunction p.1⟩ : Extra)), x.Writable := by
      intro x hx
      obtain ⟨q, hq, rfl⟩ := List.mem_map.1 hx
      exact file_no_comma hd (h q hq)
    have ht : (ls.map fun p => file I p.2 ++ ':' :: gpiFunction p.1) =
        (ls.map fun p => (⟨file I p.2, gpiFunction p.1⟩ : Extra)).map Extra.text := by
      rw [List.map_map]; rfl
    have hs := splitExtra_join hw [] (.inl rfl)
    rw [List.append_nil] at hs
    simp only [entryPoint]
    rw [join_eq, ht, hs, loadLibs_all hw hl]

theorem adds_empty (I : Install) (s : PyStr) : Adds I s [] (some []) :=
  ⟨[], rfl, by simp, by intro L users _; simp [entryPoint, splitExtra, findFirst, loadLibs]⟩

theorem adds_one {I : Install} (hd : ',' ∉ I.libsDir) {s i lib : PyStr} (h : Offered I.nt i s lib) :
    Adds I s [i] (some (file I lib ++ ':' :: gpiFunction i)) :=
  adds_list hd [(i, lib)] (by simpa using h)

theorem names_foreign {pre func lib : PyStr} (h : pre = func ++ [' ']) : Names (pre ++ lib) lib (some func) := by
  have := Names.foreign lib func
  rw [h, List.append_assoc]
  exact this

/-- The libraries of Questa. -/
def questaLib (i : PyStr) : PyStr := "cocotb".toList ++ i ++ "_modelsim".toList

theorem questa_offered (nt : Bool) {i : PyStr} (h : i ∈ interfaces) : Offered nt i "questa".toList (questaLib i) := by
  revert nt
  have : ∀ i ∈ interfaces, ∀ nt : Bool, Offered nt i "questa".toList (questaLib i) := by decide +kernel
  exact fun nt => this i h nt

theorem questa_extra {I : Install} (hI : Valid I) : ∀ {is : List PyStr}, (∀ i ∈ is, i ∈ interfaces) →
    questaExtra I is = .ok (is.map fun i => file I (questaLib i) ++ ':' :: gpiFunction i)
  | [], _ => rfl
  | i :: is, h => by
    have ho := questa_offered I.nt (h i (by simp))
    have hf := offered hI ho
    have ih := questa_extra hI (is := is) (fun j hj => h j (by simp [hj]))
    simp only [questaExtra, path_of hI ho hf.2.2.1, hf.2.2.2.2.2.1, if_true, ih]
    rfl

theorem questa_adds {I : Install} (hd : ',' ∉ I.libsDir) {is : List PyStr} (h : ∀ i ∈ is, i ∈ interfaces) :
    Adds I "questa".toList is (some (join ',' (is.map fun i => file I (questaLib i) ++ ':' :: gpiFunction i))) := by
  have := adds_list hd (s := "questa".toList) (is.map fun i => (i, questaLib i)) (by
    intro p hp
    obtain ⟨i, hi, rfl⟩ := List.mem_map.1 hp
    exact questa_offered I.nt (h i hi))
  simpa [List.map_map, Function.comp_def] using this

theorem questa_test {I : Install} (hI : Valid I) (hd : ',' ∉ I.libsDir) {sim : Sim} (hs : sim = .questa ∨ sim = .questaQis)
    (lang : PyStr) {given : Option (List PyStr)} {first : PyStr} {rest : List PyStr}
    (hg : gpiInterfaces sim given = first :: rest) (h : ∀ i ∈ first :: rest, i ∈ interfaces) :
    TestLoads I sim lang given first rest := by
  have hn : simName sim = "questa".toList := by rcases hs with rfl | rfl <;> rfl
  have he : gpiExtra I lang (first :: rest) sim = (questaExtra I rest).map fun l => some (join ',' l) := by
    rcases hs with rfl | rfl <;> rfl
  have hr : ∀ i ∈ rest, i ∈ interfaces := fun i hi => h i (by simp [hi])
  unfold TestLoads
  rw [hg, hn]
  refine ⟨?_, _, by rw [he, questa_extra hI hr]; rfl, questa_adds hd hr⟩
  have ho := questa_offered I.nt (h first (by simp))
  have hf : first ∈ interfaces := h first (by simp)
  simp only [interfaces, List.mem_cons, List.not_mem_nil, or_false] at hf
  have hl : simLoads I lang (first :: rest) sim =
      (if some first = some "fli".toList then
        (libNamePath I "fli".toList "questa".toList).map fun p => "cocotb_init ".toList ++ p
      else if some first = some "vhpi".toList then
        (libNamePath I "vhpi".toList "questa".toList).map fun p => "vhpi_startup_routines_bootstrap ".toList ++ p
      else libEntry I "vpi".toList "questa".toList) := by rcases hs with rfl | rfl <;> rfl
  rw [hl]
  rcases hf with rfl | rfl | rfl
  · rw [if_neg (by decide), if_neg (by decide)]
    exact entry_of hI ho (by decide) (by decide)
  · rw [if_neg (by decide), if_pos rfl, path_of hI ho (by decide)]
    exact ⟨_, rfl, _, some "vhpi_startup_routines_bootstrap".toList, ho, names_foreign (by decide), .inr (by decide)⟩
  · rw [if_pos rfl, path_of hI ho (by decide)]
    exact ⟨_, rfl, _, some "cocotb_init".toList, ho, names_foreign (by decide), .inr (by decide)⟩

/-- Runners that load one interface. -/
theorem single_test {I : Install} (hI : Valid I) {sim : Sim} {lang i lib : PyStr} {given : Option (List PyStr)}
    (ho : Offered I.nt i (simName sim) lib) (hl : simLoads I lang (gpiInterfaces sim given) sim = libEntry I i (simName sim))
    (he : gpiExtra I lang (gpiInterfaces sim given) sim = .ok none) : TestLoads I sim lang given i [] := by
  obtain ⟨_, _, h3, h4, _⟩ := offered hI ho
  exact ⟨by rw [hl]; exact entry_of hI ho h3 h4, none, he, adds_none _ _⟩

theorem offer_posix {nt : Bool} {i s lib : PyStr} (hn : nt = false) (h : Offered false i s lib) : Offered nt i s lib := hn ▸ h

theorem offer_all {nt : Bool} {i s lib : PyStr} (h : Offered true i s lib) : Offered nt i s lib := by
  obtain ⟨o, h1, h2, h3, h4, h5⟩ := h
  exact ⟨o, h1, h2, h3, h4, fun _ => h5 rfl⟩

theorem aldec_test {I : Install} (hI : Valid I) (hd : ',' ∉ I.libsDir) (lang : PyStr) (given : Option (List PyStr)) :
    TestLoads I .aldec lang given (if lang = "vhdl".toList then "vhpi".toList else "vpi".toList)
      (if lang = "vhdl".toList then ["vpi".toList] else ["vhpi".toList]) := by
  have ov : Offered I.nt "vpi".toList "riviera".toList "cocotbvpi_aldec".toList := offer_all (by decide +kernel)
  have oh : Offered I.nt "vhpi".toList "riviera".toList "cocotbvhpi_aldec".toList := offer_all (by decide +kernel)
  have pv := path_of hI ov (i' := "vpi".toList) (by decide)
  have ph := path_of hI oh (i' := "vhpi".toList) (by decide)
  have ev : libEntry I "vpi".toList "riviera".toList = .ok (file I "cocotbvpi_aldec".toList) := by
    have : lower "vpi".toList = "vpi".toList ∧ lower "riviera".toList = "riviera".toList ∧
      entryFunction "vpi".toList "riviera".toList = none := by decide
    simp only [libEntry, this, pv]
  by_cases h : lang = "vhdl".toList
  · simp only [h, if_true]
    refine ⟨?_, _, ?_, adds_one hd ov⟩
    · simp only [simLoads, if_true]; exact entry_of hI oh (by decide) (by decide)
    · simp only [gpiExtra, if_true, ev]; rfl
  · simp only [h, if_false]
    refine ⟨?_, _, ?_, adds_one hd oh⟩
    · simp only [simLoads, h, if_false]; exact entry_of hI ov (by decide) (by decide)
    · simp only [gpiExtra, h, if_false, ph]; rfl

theorem xcelium_test {I : Install} (hI : Valid I) (hn : I.nt = false) (hd : ',' ∉ I.libsDir) (lang : PyStr)
    (given : Option (List PyStr)) : TestLoads I .xcelium lang given "vpi".toList ["vhpi".toList] := by
  have ov : Offered I.nt "vpi".toList "xcelium".toList "cocotbvpi_ius".toList := offer_posix hn (by decide +kernel)
  have oh : Offered I.nt "vhpi".toList "xcelium".toList "cocotbvhpi_ius".toList := offer_posix hn (by decide +kernel)
  refine ⟨?_, _, ?_, adds_one hd oh⟩
  · exact entry_of (i' := "vpi".toList) (s' := "xcelium".toList) hI ov (by decide) (by decide)
  · simp only [gpiExtra, path_of hI oh (i' := "vhpi".toList) (by decide)]; rfl

theorem verilator_test {I : Install} (hI : Valid I) (hn : I.nt = false) (lang : PyStr)
    (given : Option (List PyStr)) : TestLoads I .verilator lang given "vpi".toList [] := by
  have ov : Offered I.nt "vpi".toList "verilator".toList "cocotbvpi_verilator".toList := offer_posix hn (by decide +kernel)
  have hm : I.msvc = false := by
    cases h : I.msvc with
    | false => rfl
    | true => rw [hI h] at hn; cases hn
  refine ⟨⟨_, rfl, _, none, ov, ?_, .inl rfl⟩, none, rfl, adds_none _ _⟩
  have : I.libsDir ++ "/libcocotbvpi_verilator.so".toList = file I "cocotbvpi_verilator".toList := by
    simp [file, hm, hn]
  rw [this]
  exact .plain _

/-! ## Makefiles -/

theorem mk_case {I : Install} (hI : Valid I) (hd : ',' ∉ I.libsDir) {m : Mk} {v : MkVars} {first : PyStr} {flib : PyStr}
    {func : Option PyStr} {pre : Option PyStr} (ho : Offered I.nt first (mkName m) flib)
    (hl : mkLoads I v m = (match pre with
      | none => libEntry I first (mkName m)
      | some t => (libNamePath I first (mkName m)).map fun p => t ++ p))
    (hp : ∀ t, pre = some t → func = some (startFunction first) ∧ t = startFunction first ++ [' ']) {rest : Option (PyStr × PyStr)}
    (hr : ∀ r, rest = some r → Offered I.nt r.1 (mkName m) r.2)
    (he : ∃ e, (e = none ∨ e = some []) ∧ mkExtra I v m = (match rest with
      | none => .ok e
      | some r => (libNamePath I r.1 (mkName m)).map fun p => some (p ++ ':' :: gpiFunction r.1))) :
    MakeLoads I m v first (rest.toList.map (·.1)) := by
  obtain ⟨_, _, h3, h4, _⟩ := offered hI ho
  refine ⟨?_, ?_⟩
  · rw [hl]
    cases pre with
    | none => exact entry_of hI ho h3 h4
    | some t =>
      obtain ⟨h5, h6⟩ := hp t rfl
      simp only [path_of hI ho h3]
      exact ⟨_, rfl, flib, some (startFunction first), ho, names_foreign h6, .inr rfl⟩
  · obtain ⟨e, hn, he⟩ := he
    cases rest with
    | none =>
      refine ⟨e, he, ?_⟩
      rcases hn with rfl | rfl
      · exact adds_none _ _
      · exact adds_empty _ _
    | some r =>
      have hr := hr r rfl
      have hp := path_of hI hr (offered hI hr).2.2.1
      exact ⟨some (file I r.2 ++ ':' :: gpiFunction r.1), by rw [he]; simp only [hp]; rfl, adds_one hd hr⟩

theorem mkVpi (I : Install) (m : Mk) (h : I.nt = true → m ≠ .xcelium ∧ m ≠ .ius) :
    ∃ lib, Offered I.nt "vpi".toList (mkName m) lib := by
  cases m with
  | activehdl => exact ⟨_, offer_all (lib := "cocotbvpi_aldec".toList) (by decide +kernel)⟩
  | riviera => exact ⟨_, offer_all (lib := "cocotbvpi_aldec".toList) (by decide +kernel)⟩
  | questaCompat => exact ⟨_, questa_offered _ (by decide)⟩
  | questaQis => exact ⟨_, questa_offered _ (by decide)⟩
  | xcelium =>
    have hn : I.nt = false := by cases hn : I.nt with | false => rfl | true => exact absurd rfl (h hn).1
    exact ⟨_, offer_posix (lib := "cocotbvpi_ius".toList) hn (by decide +kernel)⟩
  | ius =>
    have hn : I.nt = false := by cases hn : I.nt with | false => rfl | true => exact absurd rfl (h hn).2
    exact ⟨_, offer_posix (lib := "cocotbvpi_ius".toList) hn (by decide +kernel)⟩

theorem mkVhdl_offered (I : Install) (m : Mk) (v : MkVars) (h : I.nt = true → m ≠ .xcelium ∧ m ≠ .ius) :
    ∃ lib, Offered I.nt (mkVhdl v m) (mkName m) lib := by
  cases m with
  | activehdl => exact ⟨_, offer_all (i := "vhpi".toList) (s := "activehdl".toList) (lib := "cocotbvhpi_aldec".toList) (by decide +kernel)⟩
  | riviera => exact ⟨_, offer_all (i := "vhpi".toList) (s := "riviera".toList) (lib := "cocotbvhpi_aldec".toList) (by decide +kernel)⟩
  | questaCompat => cases hv : v.vhpi <;> simp only [mkVhdl, hv] <;> exact ⟨_, questa_offered _ (by decide)⟩
  | questaQis => cases hv : v.vhpi <;> simp only [mkVhdl, hv] <;> exact ⟨_, questa_offered _ (by decide)⟩
  | xcelium =>
    have hn : I.nt = false := by cases hn : I.nt with | false => rfl | true => exact absurd rfl (h hn).1
    exact ⟨_, offer_posix (i := "vhpi".toList) (s := "xcelium".toList) (lib := "cocotbvhpi_ius".toList) hn (by decide +kernel)⟩
  | ius =>
    have hn : I.nt = false := by cases hn : I.nt with | false => rfl | true => exact absurd rfl (h hn).2
    exact ⟨_, offer_posix (i := "vhpi".toList) (s := "ius".toList) (lib := "cocotbvhpi_ius".toList) hn (by decide +kernel)⟩

/-- The entry point of a makefile. -/
def mkFirst (v : MkVars) : Mk → PyStr
  | .xcelium | .ius => "vpi".toList
  | m => if v.vhdlTop then mkVhdl v m else "vpi".toList

/-- How Questa is told about it. -/
def mkPre (v : MkVars) : Mk → Option PyStr
  | .questaCompat | .questaQis =>
    if v.vhdlTop then (if v.vhpi then some "vhpi_startup_routines_bootstrap ".toList else some "cocotb_init ".toList) else none
  | _ => none

/-- The other interface of a makefile. -/
def mkRest (v : MkVars) : Mk → Option PyStr
  | .xcelium | .ius => if v.vhdlTop || v.vhdlSources then some "vhpi".toList else none
  | m => if v.vhdlTop then (if v.verilogSources then some "vpi".toList else none)
    else if v.vhdlSources then some (mkVhdl v m) else none

theorem mkRest_cases (v : MkVars) (m : Mk) {i : PyStr} (h : mkRest v m = some i) : i = "vpi".toList ∨ i = mkVhdl v m := by
  obtain ⟨t, s, l, g, p⟩ := v
  cases m <;> cases t <;> cases s <;> cases g <;> first
    | (cases h; done)
    | exact .inl (Option.some.inj h).symm
    | exact .inr (Option.some.inj h).symm

theorem mk_extra (I : Install) (v : MkVars) (m : Mk) :
    ∃ e, (e = none ∨ e = some []) ∧ mkExtra I v m = (match mkRest v m with
        | none => .ok e
        | some i => (libNamePath I i (mkName m)).map fun p => some (p ++ ':' :: gpiFunction i)) := by
  have hv : ":cocotbvpi_entry_point".toList = ':' :: gpiFunction "vpi".toList := by decide
  have hh : ":cocotbvhpi_entry_point".toList = ':' :: gpiFunction "vhpi".toList := by decide
  have hq : ∀ i p : PyStr, p ++ ":cocotb".toList ++ i ++ "_entry_point".toList = p ++ ':' :: gpiFunction i := by
    intro i p
    have : ":cocotb".toList = ':' :: "cocotb".toList := by decide
    simp only [gpiFunction, this, List.append_assoc, List.cons_append]
  obtain ⟨t, s, l, g, p⟩ := v
  cases m <;> cases t <;> cases s <;> cases g <;> first
    | exact ⟨none, .inl rfl, rfl⟩
    | exact ⟨some [], .inr rfl, rfl⟩
    | (refine ⟨none, .inl rfl, ?_⟩; simp only [mkExtra, mkRest, hv, hh]; rfl)
    | (refine ⟨none, .inl rfl, ?_⟩; simp only [mkExtra, mkRest, hq]; rfl)

theorem mk_first (I : Install) (v : MkVars) (m : Mk) :
    mkLoads I v m = (match mkPre v m with
      | none => libEntry I (mkFirst v m) (mkName m)
      | some t => (libNamePath I (mkFirst v m) (mkName m)).map fun p => t ++ p) ∧
    ∀ t, mkPre v m = some t → t = startFunction (mkFirst v m) ++ [' '] := by
  obtain ⟨t, s, l, g, p⟩ := v
  refine ⟨by cases m <;> cases t <;> cases p <;> rfl, ?_⟩
  intro u hu
  cases m <;> cases t <;> cases p <;> first
    | (cases hu; done)
    | (rw [← Option.some.inj hu]; clear hu; revert s l g; decide +kernel)

theorem mk_loads {I : Install} (hI : Valid I) (hd : ',' ∉ I.libsDir) (m : Mk) (v : MkVars)
    (hn : I.nt = true → m ≠ .xcelium ∧ m ≠ .ius) : MakeLoads I m v (mkFirst v m) (mkRest v m).toList := by
  obtain ⟨vl, ov⟩ := mkVpi I m hn
  obtain ⟨hl, oh⟩ := mkVhdl_offered I m v hn
  have offer : ∀ i, i = "vpi".toList ∨ i = mkVhdl v m → ∃ lib, Offered I.nt i (mkName m) lib := by
    rintro i (rfl | rfl)
    · exact ⟨_, ov⟩
    · exact ⟨_, oh⟩
  have hf : mkFirst v m = "vpi".toList ∨ mkFirst v m = mkVhdl v m := by
    cases m <;> simp only [mkFirst] <;> first | exact .inl trivial | (split <;> simp)
  obtain ⟨flib, of⟩ := offer _ hf
  have hr : ∃ r : Option (PyStr × PyStr), r.map (·.1) = mkRest v m ∧ ∀ x, r = some x → Offered I.nt x.1 (mkName m) x.2 := by
    cases h : mkRest v m with
    | none => exact ⟨none, rfl, by simp⟩
    | some i =>
      obtain ⟨l, hl⟩ := offer i (mkRest_cases v m h)
      exact ⟨some (i, l), rfl, by rintro x hx; rw [← Option.some.inj hx]; exact hl⟩
  obtain ⟨r, hr1, hr2⟩ := hr
  have h1 := mk_first I v m
  have h2 := mk_extra I v m
  rw [← hr1] at h2
  have key := mk_case hI hd (v := v) of (func := some (startFunction (mkFirst v m))) h1.1 (fun t ht => ⟨rfl, h1.2 t ht⟩) hr2
    (by cases r <;> exact h2)
  have : r.toList.map (·.1) = (mkRest v m).toList := by rw [← hr1]; cases r <;> rfl
  rwa [this] at key

end Verif.Libs

namespace Verif

open Verif.Libs Verif.Life Verif.LifeSpec Verif.LibsSpec
open Verif.Runner (Sim)

/-! ## C148: the names of the libraries -/

/-- **C148.** For each interface of each simulator, `lib_name_path` gives the file of its library, and this file is
installed; `lib_entry` gives this file too, alone or with the function that the simulator has to call. Upper and lower
case make no difference in the name of the interface, and for `lib_entry` in the name of the simulator. -/
theorem C148_library (I : Install) (hI : Valid I) (i s lib : PyStr) (h : Offered I.nt i s lib) (i' s' : PyStr)
    (hi : lower i' = i) (hs : lower s' = s) :
    libNamePath I i' s = .ok (file I lib) ∧ file I lib ∈ installed I ∧
    ∃ arg, libEntry I i' s' = .ok arg ∧ Told I s i arg :=
  ⟨path_of hI h hi, (offered hI h).2.2.2.2.2.1, entry_of hI h hi hs⟩

/-- The VHPI library of Riviera-PRO. -/
example : ∃ I : Install, Valid I ∧ Offered I.nt "vhpi".toList "riviera".toList "cocotbvhpi_aldec".toList ∧
    lower "VHPI".toList = "vhpi".toList ∧ lower "Riviera".toList = "riviera".toList ∧
    libNamePath I "VHPI".toList "riviera".toList = .ok "/c/libs/libcocotbvhpi_aldec.so".toList ∧
    libEntry I "VHPI".toList "Riviera".toList = .ok "/c/libs/libcocotbvhpi_aldec.so:vhpi_startup_routines_bootstrap".toList :=
  ⟨⟨false, false, "/c/libs".toList, []⟩, by simp [Valid], by decide +kernel, by decide +kernel, by decide +kernel,
    by decide +kernel, by decide +kernel⟩

theorem Libs.blind_table : ∀ o ∈ offers, entryFunction o.1 o.2.1 = if (o.1, o.2.1) ∈ blind then some (startFunction o.1) else none := by
  decide +kernel

/-- **C148.** `lib_entry` names the function exactly for the simulators that do not find it themselves. -/
theorem C148_function (I : Install) (hI : Valid I) (i s lib : PyStr) (h : Offered I.nt i s lib) (i' s' : PyStr)
    (hi : lower i' = i) (hs : lower s' = s) :
    libEntry I i' s' = .ok (if (i, s) ∈ blind then file I lib ++ ':' :: startFunction i else file I lib) := by
  obtain ⟨_, _, h3, _, _, _, _⟩ := offered hI h
  have hp := path_of hI h h3
  have ht : entryFunction i s = if (i, s) ∈ blind then some (startFunction i) else none := by
    obtain ⟨o, ho, rfl, rfl, _, _⟩ := h
    exact Libs.blind_table o ho
  unfold libEntry
  rw [hi, hs, hp, ht]
  by_cases hb : (i, s) ∈ blind <;> simp [hb]

/-- With the function, and without. -/
example : ("vpi".toList, "cvc".toList) ∈ blind ∧ ("vpi".toList, "icarus".toList) ∉ blind ∧
    Offered true "vpi".toList "cvc".toList "cocotbvpi_modelsim".toList ∧
    Offered true "vpi".toList "icarus".toList "cocotbvpi_icarus".toList := by decide +kernel

/-- **C148.** Other names of interfaces and simulators raise ValueError; the two functions accept the same names if these
are in lower case. -/
theorem C148_rejected (I : Install) (i s : PyStr) :
    (lower i ∉ interfaces ∨ s ∉ simulators → libNamePath I i s = .error .valueError) ∧
    (lower i ∉ interfaces ∨ lower s ∉ simulators → libEntry I i s = .error .valueError) ∧
    (lower i ∈ interfaces → lower s ∈ simulators → ∃ p, libNamePath I i (lower s) = .ok p ∧
      (libEntry I i s = .ok p ∨ ∃ f, libEntry I i s = .ok (p ++ ':' :: f))) := by
  have hl : lower (lower i) = lower i := lower_lower i
  refine ⟨?_, ?_, ?_⟩
  · intro h
    unfold libNamePath
    rcases h with h | h
    · rw [if_neg h]
    · simp [h]
  · intro h
    have : libNamePath I (lower i) (lower s) = .error .valueError := by
      unfold libNamePath
      rw [hl]
      rcases h with h | h
      · rw [if_neg h]
      · simp [h]
    simp [libEntry, this]
  · intro hi hs
    refine ⟨I.libsDir ++ '/' :: libName I.nt I.msvc (lower i) (lower s), ?_, ?_⟩
    · simp [libNamePath, hi, hs, lower_lower]
    · have : libNamePath I (lower i) (lower s) =
          .ok (I.libsDir ++ '/' :: libName I.nt I.msvc (lower i) (lower s)) := by
        simp [libNamePath, hi, hs, lower_lower]
      simp only [libEntry, this]
      cases entryFunction (lower i) (lower s) with
      | none => exact .inl rfl
      | some f => exact .inr ⟨f, rfl⟩

/-- The full claim on case: `lib_name_path` accepts the name of a simulator in upper and lower case, as `lib_entry`. -/
def C148_case_full : Prop := ∀ (I : Install) (i s : PyStr), lower i ∈ interfaces → lower s ∈ simulators →
  libNamePath I i s = libNamePath I i (lower s)

/-- **C148.** It does not: `lib_name_path("VPI", "Icarus")` raises. -/
theorem C148_case_counterexample : ¬ C148_case_full := by
  intro h
  have := h ⟨false, false, [], []⟩ "VPI".toList "Icarus".toList (by decide +kernel) (by decide +kernel)
  revert this
  decide +kernel

/-- The full claim on files: what `lib_name_path` gives is a file. -/
def C148_file_full : Prop := ∀ (I : Install) (i s p : PyStr), Valid I → libNamePath I i s = .ok p → p ∈ installed I

/-- **C148.** It need not be: `lib_name_path("fli", "icarus")` does not raise. -/
theorem C148_file_counterexample : ¬ C148_file_full := by
  intro h
  have := h ⟨false, false, [], []⟩ "fli".toList "icarus".toList _ (by simp [Valid]) rfl
  revert this
  decide +kernel

/-! ## C149: the interfaces of a test -/

/-- The full claim for the default: without the argument `gpi_interfaces`, a test loads the interface of each language
the runner supports (the first, if it has two), each once. -/
def C149_default_full : Prop := ∀ (I : Install) (sim : Sim) (lang : PyStr), Valid I → Works I.nt sim →
  lang ∈ (supported sim).map (·.1) → ∃ first rest, TestLoads I sim lang none first rest ∧ (first :: rest).Nodup ∧
    ∀ i, i ∈ first :: rest ↔ ∃ l ∈ supported sim, l.2.head? = some i

/-- **C149.** With a comma in the path of the installation, the second interface is not loaded. -/
theorem C149_default_counterexample : ¬ C149_default_full := by
  intro h
  obtain ⟨first, rest, ⟨_, extra, he, xs, _, _, hx⟩, _⟩ := h ⟨false, false, "/a,b".toList, []⟩ .xcelium "verilog".toList
    (by simp [Valid]) (by simp [Works]) (by decide)
  have hx := hx ⟨fun _ => true, fun _ _ => true⟩ none (by simp [Extra.Loads])
  have : extra = some "/a,b/libcocotbvhpi_ius.so:cocotbvhpi_entry_point".toList := by
    have h2 : gpiExtra ⟨false, false, "/a,b".toList, []⟩ "verilog".toList (gpiInterfaces .xcelium none) .xcelium =
      .ok (some "/a,b/libcocotbvhpi_ius.so:cocotbvhpi_entry_point".toList) := by decide +kernel
    rw [h2] at he
    exact (Except.ok.inj he).symm
  rw [this] at hx
  have h3 : entryPoint ⟨fun _ => true, fun _ _ => true⟩ (some "/a,b/libcocotbvhpi_ius.so:cocotbvhpi_entry_point".toList) none =
      ([.exit], false) := by
    simp [entryPoint, splitExtra, findFirst, loadLibs, findLast]
  rw [h3] at hx
  cases xs with
  | nil => simp [loadUsers] at hx
  | cons x xs => simp [Extra.events] at hx

/-- **C149.** Without a comma it is. -/
theorem C149_default_partial (I : Install) (sim : Sim) (lang : PyStr) (hI : Valid I) (hw : Works I.nt sim)
    (hl : lang ∈ (supported sim).map (·.1)) (hd : ',' ∉ I.libsDir) :
    ∃ first rest, TestLoads I sim lang none first rest ∧ (first :: rest).Nodup ∧
      ∀ i, i ∈ first :: rest ↔ ∃ l ∈ supported sim, l.2.head? = some i := by
  have hp : sim ∈ [Sim.verilator, .xcelium, .vcs, .dsim] → I.nt = false := by
    intro h
    cases hn : I.nt with
    | false => rfl
    | true => exact absurd h (hw hn)
  cases sim with
  | icarus => exact ⟨_, _, single_test (i := "vpi".toList) (lib := "cocotbvpi_icarus".toList) hI (offer_all (by decide +kernel)) rfl rfl, by decide,
      by simp [supported, eq_comm]⟩
  | questa => exact ⟨_, _, questa_test hI hd (.inl rfl) lang (first := "vpi".toList) (rest := ["fli".toList]) rfl (by decide),
      by decide, by simp [supported, eq_comm]⟩
  | questaQis => exact ⟨_, _, questa_test hI hd (.inr rfl) lang (first := "vpi".toList) (rest := ["fli".toList]) rfl (by decide),
      by decide, by simp [supported, eq_comm]⟩
  | ghdl => exact ⟨_, _, single_test (i := "vpi".toList) (lib := "cocotbvpi_ghdl".toList) hI (offer_all (by decide +kernel)) rfl rfl, by decide,
      by simp [supported, eq_comm]⟩
  | nvc => exact ⟨_, _, single_test (i := "vhpi".toList) (lib := "cocotbvhpi_nvc".toList) hI (offer_all (by decide +kernel)) rfl rfl, by decide,
      by simp [supported, eq_comm]⟩
  | aldec =>
    refine ⟨_, _, aldec_test hI hd lang none, ?_, ?_⟩
    · split <;> decide
    · intro i
      split <;> simp [supported, eq_comm, or_comm]
  | verilator => exact ⟨_, _, verilator_test hI (hp (by simp)) lang none, by decide, by simp [supported, eq_comm]⟩
  | xcelium => exact ⟨_, _, xcelium_test hI (hp (by simp)) hd lang none, by decide, by simp [supported, eq_comm]⟩
  | vcs => exact ⟨_, _, single_test (i := "vpi".toList) (lib := "cocotbvpi_vcs".toList) hI (offer_posix (hp (by simp)) (by decide +kernel)) rfl rfl,
      by decide, by simp [supported, eq_comm]⟩
  | dsim => exact ⟨_, _, single_test (i := "vpi".toList) (lib := "cocotbvpi_dsim".toList) hI (offer_posix (hp (by simp)) (by decide +kernel)) rfl rfl,
      by decide, by simp [supported, eq_comm]⟩

example : ∃ I : Install, Valid I ∧ Works I.nt .questa ∧ "vhdl".toList ∈ (supported .questa).map (·.1) ∧ ',' ∉ I.libsDir ∧
    gpiExtra I "vhdl".toList (gpiInterfaces .questa none) .questa =
      .ok (some "/c/libs/libcocotbfli_modelsim.so:cocotbfli_entry_point".toList) :=
  ⟨⟨false, false, "/c/libs".toList, []⟩, by simp [Valid], by simp [Works], by decide, by decide, by decide +kernel⟩

/-- The full claim for the argument: a test loads the interfaces given by `gpi_interfaces`, the first of them as the entry
point. -/
def C149_chosen_full : Prop := ∀ (I : Install) (sim : Sim) (lang first : PyStr) (rest : List PyStr), Valid I → Works I.nt sim →
  ',' ∉ I.libsDir → lang ∈ (supported sim).map (·.1) →
  (∀ i ∈ first :: rest, ∃ l ∈ supported sim, i ∈ l.2) → TestLoads I sim lang (some (first :: rest)) first rest

/-- **C149.** Other runners than those for Questa ignore the argument: with Xcelium, `["vhpi"]` has the simulator load the
VPI library. -/
theorem C149_chosen_counterexample : ¬ C149_chosen_full := by
  intro h
  obtain ⟨⟨arg, ha, lib, func, ho, hn, _⟩, _⟩ := h ⟨false, false, "/c".toList, []⟩ .xcelium "vhdl".toList "vhpi".toList []
    (by simp [Valid]) (by simp [Works]) (by decide) (by decide) (by decide)
  have h2 : simLoads ⟨false, false, "/c".toList, []⟩ "vhdl".toList (gpiInterfaces .xcelium (some ["vhpi".toList])) .xcelium =
    .ok "/c/libcocotbvpi_ius.so:vlog_startup_routines_bootstrap".toList := by decide +kernel
  rw [h2] at ha
  have ha := Except.ok.inj ha
  have hlib : lib = "cocotbvhpi_ius".toList := by
    obtain ⟨o, ho, h1, h2, h3, _⟩ := ho
    have : ∀ o ∈ offers, o.1 = "vhpi".toList → o.2.1 = "xcelium".toList → o.2.2.1 = "cocotbvhpi_ius".toList := by decide +kernel
    rw [← h3]; exact this o ho h1 h2
  subst hlib
  have hpre : ∀ t : PyStr, ("/c/libcocotbvpi_ius.so:vlog_startup_routines_bootstrap".toList) ≠
      "/c/libcocotbvhpi_ius.so".toList ++ t := by
    intro t ht
    have := congrArg (fun l => l[13]?) ht
    simp at this
  have hfile : file ⟨false, false, "/c".toList, []⟩ "cocotbvhpi_ius".toList = "/c/libcocotbvhpi_ius.so".toList := by decide +kernel
  rw [hfile] at hn
  generalize hL : "/c/libcocotbvhpi_ius.so".toList = lib at hn
  cases hn with
  | plain => exact hpre [] (by rw [hL, ha, List.append_nil])
  | colon _ f => exact hpre (':' :: f) (by rw [hL, ha])
  | foreign _ f =>
    have : ' ' ∈ "/c/libcocotbvpi_ius.so:vlog_startup_routines_bootstrap".toList := by rw [ha]; simp
    revert this
    decide

/-- **C149.** With Questa they are loaded, for all lists of interfaces. -/
theorem C149_chosen_partial (I : Install) (sim : Sim) (lang first : PyStr) (rest : List PyStr) (hI : Valid I)
    (hd : ',' ∉ I.libsDir) (hs : sim = .questa ∨ sim = .questaQis) (hi : ∀ i ∈ first :: rest, ∃ l ∈ supported sim, i ∈ l.2) :
    TestLoads I sim lang (some (first :: rest)) first rest := by
  apply questa_test hI hd hs lang rfl
  intro i h
  obtain ⟨l, hl, hm⟩ := hi i h
  have : ∀ l ∈ supported sim, ∀ i ∈ l.2, i ∈ interfaces := by rcases hs with rfl | rfl <;> decide
  exact this l hl i hm

/-- All three interfaces, starting with the VHPI. -/
example : ∃ I : Install, Valid I ∧ ',' ∉ I.libsDir ∧
    (∀ i ∈ ["vhpi".toList, "vpi".toList, "fli".toList], ∃ l ∈ supported .questa, i ∈ l.2) ∧
    gpiExtra I "vhdl".toList ["vhpi".toList, "vpi".toList, "fli".toList] .questa =
      .ok (some ("/c/libcocotbvpi_modelsim.so:cocotbvpi_entry_point," ++
        "/c/libcocotbfli_modelsim.so:cocotbfli_entry_point").toList) :=
  ⟨⟨false, false, "/c".toList, []⟩, by simp [Valid], by decide, by decide, by decide +kernel⟩

/-- The full claim on wrong names: an interface that does not exist raises. -/
def C149_unknown_full : Prop := ∀ (I : Install) (lang i : PyStr), Valid I → lower i ∉ interfaces →
  ¬ ∃ arg, simLoads I lang (gpiInterfaces .questa (some [i])) .questa = .ok arg

/-- **C149.** It does not: in the first place it stands for the VPI. -/
theorem C149_unknown_counterexample : ¬ C149_unknown_full := by
  intro h
  exact h ⟨false, false, [], []⟩ "vhdl".toList "x".toList (by simp [Valid]) (by decide) ⟨_, rfl⟩

/-- **C149.** In another place it does. -/
theorem C149_unknown_partial (I : Install) (lang first i : PyStr) (pre post : List PyStr) (hI : Valid I)
    (hp : ∀ j ∈ pre, j ∈ interfaces) (hi : lower i ∉ interfaces) :
    gpiExtra I lang (gpiInterfaces .questa (some (first :: (pre ++ i :: post)))) .questa = .error .valueError := by
  have : ∀ {pre : List PyStr}, (∀ j ∈ pre, j ∈ interfaces) → questaExtra I (pre ++ i :: post) = .error .valueError := by
    intro pre
    induction pre with
    | nil => intro _; simp [questaExtra, libNamePath, hi]
    | cons j pre ih =>
      intro h
      have ho := questa_offered I.nt (h j (by simp))
      have hf := offered hI ho
      simp only [List.cons_append, questaExtra, path_of hI ho hf.2.2.1, hf.2.2.2.2.2.1, if_true]
      rw [ih (fun k hk => h k (by simp [hk]))]
      rfl
  show (questaExtra I (pre ++ i :: post)).map _ = _
  rw [this hp]; rfl

example : ∃ I : Install, Valid I ∧ (∀ j ∈ ["vpi".toList], j ∈ interfaces) ∧ lower "VPY".toList ∉ interfaces :=
  ⟨⟨false, false, [], []⟩, by simp [Valid], by decide, by decide⟩

/-- **C149.** `GPI_USERS`, as runners and makefiles set it, loads libpython and the Python interface, and calls the
function `initialize` of the latter. -/
theorem C149_users (I : Install) (libpython : PyStr) (L : Loader) (h1 : ';' ∉ libpython) (h2 : ',' ∉ libpython)
    (h3 : ';' ∉ I.simulator) (hp : L.opens libpython = true) (ho : L.opens I.simulator = true)
    (hs : L.sym I.simulator "initialize".toList = true) :
    loadUsers L (some (gpiUsers I libpython)) =
      ([.opened libpython, .opened I.simulator, .called I.simulator "initialize".toList], true) := by
  have := loadUsers_all (L := L) (us := [⟨libpython, none⟩, ⟨I.simulator, some "initialize".toList⟩]) (by simp)
    (by
      intro u hu
      simp only [List.mem_cons, List.not_mem_nil, or_false] at hu
      rcases hu with rfl | rfl
      · exact ⟨h1, h2⟩
      · exact ⟨h3, by decide, by decide⟩)
    (by
      intro u hu
      simp only [List.mem_cons, List.not_mem_nil, or_false] at hu
      rcases hu with rfl | rfl
      · exact ⟨hp, by simp⟩
      · exact ⟨ho, by intro f hf; rw [← Option.some.inj hf]; exact hs⟩)
  exact this

example : ∃ (I : Install) (lp : PyStr) (L : Loader), ';' ∉ lp ∧ ',' ∉ lp ∧ ';' ∉ I.simulator ∧ L.opens lp = true ∧
    L.opens I.simulator = true ∧ L.sym I.simulator "initialize".toList = true ∧
    gpiUsers I lp = "/p/libpython3.so;/c/simulator.so,initialize".toList :=
  ⟨⟨false, false, [], "/c/simulator.so".toList⟩, "/p/libpython3.so".toList, ⟨fun _ => true, fun _ _ => true⟩,
    by decide, by decide, by decide, rfl, rfl, rfl, by decide +kernel⟩

/-! ## C150: the interfaces of make -/

/-- The full claim: each language of the design has its interface loaded, by the makefiles of simulators for both
languages. -/
def C150_languages_full : Prop := ∀ (I : Install) (m : Mk) (v : MkVars), Valid I → (I.nt = true → m ≠ .xcelium ∧ m ≠ .ius) →
  ',' ∉ I.libsDir → ∃ first rest, MakeLoads I m v first rest ∧ (first :: rest).Nodup ∧
    (v.vhdlTop = false ∨ v.verilogSources = true → "vpi".toList ∈ first :: rest) ∧
    (v.vhdlTop = true ∨ v.vhdlSources = true ∨ v.libSources = true → mkVhdl v m ∈ first :: rest)

/-- **C150.** VHDL sources that are only in named libraries do not count: with a Verilog toplevel and
`VHDL_SOURCES_<lib>`, the VHDL interface is not loaded. -/
theorem C150_languages_counterexample : ¬ C150_languages_full := by
  intro h
  obtain ⟨first, rest, ⟨⟨arg, ha, hT⟩, extra, he, xs, hx1, hx2, hx3⟩, _, _, hm⟩ := h ⟨false, false, "/c".toList, []⟩ .riviera
    ⟨false, false, true, true, false⟩ (by simp [Valid]) (by simp) (by decide)
  have hm := hm (.inr (.inr rfl))
  have he : extra = some [] := by
    have : mkExtra ⟨false, false, "/c".toList, []⟩ ⟨false, false, true, true, false⟩ .riviera = .ok (some []) := by rfl
    rw [this] at he
    exact (Except.ok.inj he).symm
  subst he
  have hx3 := hx3 ⟨fun _ => true, fun _ _ => true⟩ none (by simp [Extra.Loads])
  have hxs : xs = [] := by
    cases xs with
    | nil => rfl
    | cons x xs => simp [entryPoint, splitExtra, findFirst, loadLibs, loadUsers, Extra.events] at hx3
  rw [hxs] at hx1
  have hrest : rest = [] := List.length_eq_zero_iff.1 hx1.symm
  subst hrest
  simp only [List.mem_cons, List.not_mem_nil, or_false, mkVhdl] at hm
  subst hm
  obtain ⟨lib, func, ho, hn, _⟩ := hT
  have hlib : lib = "cocotbvhpi_aldec".toList := by
    obtain ⟨o, ho, h1, h2, h3, _⟩ := ho
    have : ∀ o ∈ offers, o.1 = "vhpi".toList → o.2.1 = "riviera".toList → o.2.2.1 = "cocotbvhpi_aldec".toList := by decide +kernel
    rw [← h3]; exact this o ho h1 h2
  subst hlib
  have ha2 : "/c/libcocotbvpi_aldec.so".toList = arg := by
    have : mkLoads ⟨false, false, "/c".toList, []⟩ ⟨false, false, true, true, false⟩ .riviera =
      .ok "/c/libcocotbvpi_aldec.so".toList := by decide +kernel
    rw [this] at ha
    exact Except.ok.inj ha
  have hfile : file ⟨false, false, "/c".toList, []⟩ "cocotbvhpi_aldec".toList = "/c/libcocotbvhpi_aldec.so".toList := by decide +kernel
  rw [hfile] at hn
  have hlen : arg.length < "/c/libcocotbvhpi_aldec.so".toList.length := by rw [← ha2]; decide
  generalize "/c/libcocotbvhpi_aldec.so".toList = l at hn hlen
  cases hn with
  | plain => omega
  | colon _ f => simp at hlen; omega
  | foreign _ f => simp at hlen; omega

/-- **C150.** Apart from this each language of the design has its interface loaded, and no other interface is loaded, but
that Xcelium and Incisive always load the VPI library. The entry point is the interface of the toplevel, except for these
two, where it is the VPI. -/
theorem C150_languages_partial (I : Install) (m : Mk) (v : MkVars) (hI : Valid I)
    (hn : I.nt = true → m ≠ .xcelium ∧ m ≠ .ius) (hd : ',' ∉ I.libsDir)
    (hl : v.libSources = true → v.vhdlTop = true ∨ v.vhdlSources = true) :
    ∃ first rest, MakeLoads I m v first rest ∧ (first :: rest).Nodup ∧
      (v.vhdlTop = false ∨ v.verilogSources = true → "vpi".toList ∈ first :: rest) ∧
      (v.vhdlTop = true ∨ v.vhdlSources = true ∨ v.libSources = true → mkVhdl v m ∈ first :: rest) ∧
      (∀ i ∈ first :: rest, (i = mkVhdl v m ∧ (v.vhdlTop = true ∨ v.vhdlSources = true)) ∨
        (i = "vpi".toList ∧ (v.vhdlTop = false ∨ v.verilogSources = true ∨ m = .xcelium ∨ m = .ius))) ∧
      first = (if m = .xcelium ∨ m = .ius ∨ v.vhdlTop = false then "vpi".toList else mkVhdl v m) := by
  refine ⟨_, _, mk_loads hI hd m v hn, ?_⟩
  cases m <;> cases ht : v.vhdlTop <;> cases hv : v.vhpi <;> cases hs : v.vhdlSources <;> cases hg : v.verilogSources <;>
    simp_all [mkFirst, mkRest, mkVhdl]

example : ∃ (I : Install) (v : MkVars), Valid I ∧ (I.nt = true → Mk.xcelium ≠ .xcelium ∧ Mk.xcelium ≠ .ius) ∧ ',' ∉ I.libsDir ∧
    v.libSources = true ∧ (v.libSources = true → v.vhdlTop = true ∨ v.vhdlSources = true) ∧
    mkLoads I v .xcelium = .ok "/c/libcocotbvpi_ius.so:vlog_startup_routines_bootstrap".toList ∧
    mkExtra I v .xcelium = .ok (some "/c/libcocotbvhpi_ius.so:cocotbvhpi_entry_point".toList) :=
  ⟨⟨false, false, "/c".toList, []⟩, ⟨true, false, true, true, false⟩, by simp [Valid], by simp, by decide, rfl, by simp,
    by decide +kernel, by decide +kernel⟩

/-! ## The environment of a test -/

theorem users_common (I : Install) (h : Runner.Host) (E e : Env.Environ) (lp : PyStr) (x : Option Text)
    (he : h.entryPoint = ofStr (pygpiEntryPoint I)) (hu : h.environ (Runner.lit "GPI_USERS") = none)
    (e1 : E (Runner.lit "GPI_USERS") = none) (e2 : E (Runner.lit "LIBPYTHON_LOC") = x)
    (hl : (h.environ (Runner.lit "LIBPYTHON_LOC") <|> x <|> h.libpython) = some (ofStr lp))
    (hc : Runner.setEnvCommon h E = .ok e) : e (Runner.lit "GPI_USERS") = some (ofStr (gpiUsers I lp)) := by
  have hk : ∀ j ∈ ["PATH", "PYTHONPATH", "PYGPI_PYTHON_BIN"].map Runner.lit, Runner.lit "GPI_USERS" ≠ j := by decide +kernel
  simp only [List.map_cons, List.map_nil, List.forall_mem_cons] at hk
  obtain ⟨g10, g11, g12, _⟩ := hk
  unfold Runner.setEnvCommon at hc
  have u1 : Runner.updateEnv E h.environ (Runner.lit "GPI_USERS") = none := by simp [Runner.updateEnv, hu, e1]
  have u2 : Runner.updateEnv E h.environ (Runner.lit "LIBPYTHON_LOC") =
      (h.environ (Runner.lit "LIBPYTHON_LOC") <|> x) := by
    simp only [Runner.updateEnv, e2]
    cases h.environ (Runner.lit "LIBPYTHON_LOC") <;> rfl
  simp only [u1, Option.isNone_none, if_true] at hc
  split at hc
  · cases hc
  next us hus =>
  have hus : us = [ofStr lp] := by
    rw [u2] at hus
    cases hx : h.environ (Runner.lit "LIBPYTHON_LOC") with
    | some y =>
      rw [hx] at hus hl
      simp at hus hl
      rw [← hus, hl]
    | none =>
      rw [hx] at hus hl
      cases x with
      | some y =>
        simp at hus hl
        rw [← hus, hl]
      | none =>
        simp at hus hl
        rw [hl] at hus
        simp at hus
        exact hus.symm
  split at hc
  · cases hc
  cases hc
  rw [Runner.setEnv_other _ _ g12, Runner.setEnv_other _ _ g11, Runner.setEnv_other _ _ g10, u1]
  simp only [Option.isNone_none, if_true]
  rw [Runner.setEnv_same, hus, he]
  simp [joinText, gpiUsers, join, ofStr, Runner.lit]

/-- **C149.** A runner's test sets `GPI_USERS` to libpython (the one `LIBPYTHON_LOC` names, if it is set) and the Python
interface, unless it is set by the user. -/
theorem C149_env (I : Install) (h : Runner.Host) (a : Runner.TestArgs) (old env : Env.Environ) (lp : PyStr)
    (he : h.entryPoint = ofStr (pygpiEntryPoint I)) (hr : Runner.testEnv h a old = .ok env)
    (hu : h.environ (Runner.lit "GPI_USERS") = none ∧ a.extraEnv (Runner.lit "GPI_USERS") = none)
    (hl : (h.environ (Runner.lit "LIBPYTHON_LOC") <|> a.extraEnv (Runner.lit "LIBPYTHON_LOC") <|> h.libpython) = some (ofStr lp)) :
    env (Runner.lit "GPI_USERS") = some (ofStr (gpiUsers I lp)) ∧
    (∀ t, h.gpiExtra = some t → env (Runner.lit "GPI_EXTRA") = some t) := by
  have hk : ∀ k ∈ ["GPI_USERS", "LIBPYTHON_LOC"].map Runner.lit, ∀ j ∈ ["COCOTB_TEST_FILTER", "COCOTB_RANDOM_SEED",
      "COCOTB_RESULTS_ATTACHMENTS", "COCOTB_TOPLEVEL", "COCOTB_TEST_MODULES", "TOPLEVEL_LANG", "COCOTB_TRUST_INERTIAL_WRITES",
      "COCOTB_RESULTS_FILE", "GPI_EXTRA", "PATH", "PYTHONPATH", "PYGPI_PYTHON_BIN"].map Runner.lit, k ≠ j := by decide +kernel
  have hg := hk (Runner.lit "GPI_USERS") (by simp)
  have hp := hk (Runner.lit "LIBPYTHON_LOC") (by simp)
  simp only [List.map_cons, List.map_nil, List.forall_mem_cons] at hg hp
  obtain ⟨g1, g2, g3, g4, g5, g6, g7, g8, g9, g10, g11, g12, _⟩ := hg
  obtain ⟨p1, p2, p3, p4, p5, p6, p7, p8, p9, p10, p11, p12, _⟩ := hp
  clear hk
  unfold Runner.testEnv at hr
  simp only at hr
  split at hr
  · cases hr
  next e hc =>
  cases hr
  refine ⟨?_, ?_⟩
  · rw [Runner.setOpt_other _ _ g9, Runner.setEnv_other _ _ g8, Runner.ite_env, Runner.setEnv_other _ _ g7, ite_self,
      Runner.setEnv_other _ _ g6, Runner.setEnv_other _ _ g5, Runner.setEnv_other _ _ g4]
    refine users_common I h _ e lp ((a.extraEnv (Runner.lit "LIBPYTHON_LOC"))) he hu.1 ?_ ?_ hl hc
    · rw [Runner.ite_env, Runner.setEnv_other _ _ g3, ite_self, Runner.setOpt_other _ _ g2, Runner.setOpt_other _ _ g1,
        Runner.setOpt_other _ _ g1, hu.2]
    · rw [Runner.ite_env, Runner.setEnv_other _ _ p3, ite_self, Runner.setOpt_other _ _ p2, Runner.setOpt_other _ _ p1,
        Runner.setOpt_other _ _ p1]
  · intro t ht
    rw [ht, Runner.setOpt_some]

/-- Nothing is set but `PATH`. -/
example : ∃ (I : Install) (h : Runner.Host) (a : Runner.TestArgs) (env : Env.Environ) (lp : PyStr),
    h.entryPoint = ofStr (pygpiEntryPoint I) ∧ Runner.testEnv h a (fun _ => none) = .ok env ∧
    (h.environ (Runner.lit "GPI_USERS") = none ∧ a.extraEnv (Runner.lit "GPI_USERS") = none) ∧
    (h.environ (Runner.lit "LIBPYTHON_LOC") <|> a.extraEnv (Runner.lit "LIBPYTHON_LOC") <|> h.libpython) = some (ofStr lp) :=
  ⟨⟨false, false, [], "/c/simulator.so".toList⟩,
    { environ := fun k => if k = Runner.lit "PATH" then some [] else none, libsDir := [], sysPath := [], executable := [],
      libpython := some (ofStr "/p".toList), entryPoint := ofStr (pygpiEntryPoint ⟨false, false, [], "/c/simulator.so".toList⟩),
      trustsInertial := false, gpiExtra := none },
    { extraEnv := fun _ => none, testcase := none, testFilter := none, seed := none, attachments := [], toplevel := [],
      modules := [], lang := [], resultsFile := [] }, _, "/p".toList, rfl, rfl, ⟨rfl, rfl⟩, rfl⟩

/-- The full claim on the user's variable: a `GPI_EXTRA` that the user has set reaches the simulator. -/
def C149_user_extra_full : Prop := ∀ (h : Runner.Host) (a : Runner.TestArgs) (old env : Env.Environ) (t : Text),
  h.environ (Runner.lit "GPI_EXTRA") = some t → Runner.testEnv h a old = .ok env → env (Runner.lit "GPI_EXTRA") = some t

/-- **C149.** Runners that set the variable drop the user's value. -/
theorem C149_user_extra_counterexample : ¬ C149_user_extra_full := by
  intro h
  have := h
    { environ := fun k => if k = Runner.lit "PATH" then some [] else if k = Runner.lit "GPI_EXTRA" then some [1] else none,
      libsDir := [], sysPath := [], executable := [], libpython := some [], entryPoint := [], trustsInertial := false,
      gpiExtra := some [] }
    { extraEnv := fun _ => none, testcase := none, testFilter := none, seed := none, attachments := [], toplevel := [],
      modules := [], lang := [], resultsFile := [] } (fun _ => none) _ [1] rfl rfl
  revert this
  decide +kernel

end Verif
