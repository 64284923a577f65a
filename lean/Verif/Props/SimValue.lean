import Verif.Lemmas.SimValue
import Verif.Props.HandleValue
/-!
# C119–C122: from an assignment in Python to the call of the simulator, and back
-/
namespace Verif
open Hdl Spec SimVal SimSpec

/-- Assigning `v` to the object `o` of the VHPI makes the simulator store `x` (with the mode that belongs to the
action, and whatever the buffer held before). -/
def VhpiStores (env : Env) (ref : Ref) (o : VObj) (isInteger : Bool) (v : PyVal) (x : VVal) : Prop :=
  ∃ d, Puts env ⟨ref, .leaf (vhpiLeaf o isInteger)⟩ v d ∧
    ∀ buf a, buf.length = o.numElems → vhpiSet o buf a d = some (x, putMode a)

/-- Reading an object of the VHPI with value `x` gives `v`. -/
def VhpiReads (o : VObj) (isInteger : Bool) (x : VVal) (v : PyVal) : Prop :=
  leafGet (vhpiLeaf o isInteger) (vhpiReading o x) = .ok v

/-- Assigning `v` to the object `o` of the FLI makes the simulator store `x`; signals can be forced, and then `text` is
what the simulator gets. -/
def FliStores (env : Env) (ref : Ref) (o : FObj) (v : PyVal) (x : FVal) (text : PyStr) : Prop :=
  ∃ d, Puts env ⟨ref, .leaf (fliLeaf o)⟩ v d ∧
    ∀ buf a, buf.length = o.numElems →
      (o.isVar = false → fliSet o buf a d = some (signalCall x text a)) ∧
      (o.isVar = true → a = .deposit ∨ a = .noDelay → fliSet o buf a d = some (.setVar x))

/-- Reading an object of the FLI with value `x` gives `v`. -/
def FliReads (o : FObj) (x : FVal) (v : PyVal) : Prop := leafGet (fliLeaf o) (fliReading o x) = .ok v

/-- An assignment that is refused puts nothing on a signal. -/
theorem rejects_not_puts {env : Env} {o : Obj} {v : PyVal} {e : PyErr} {d : Datum} (hc : env.isConst o.ref = false)
    (h : Rejects env o v e) : ¬ Puts env o v d := by
  intro hp
  have h1 := h (fun _ => ⟨[], 0, 0, []⟩) .init (.immediate v) .noDelay rfl (by simp [HS.init]) hc
  have h2 := (hp (fun _ => ⟨[], 0, 0, []⟩) .init (.immediate v) .noDelay rfl (by simp [HS.init]) hc).1
  rw [h1] at h2
  cases h2

/-- What is put on a signal is what Python makes of the value. -/
theorem puts_datum {env : Env} (h : Plain env) {ref : Ref} {l : Leaf} {v : PyVal} {d : Datum} (hc : env.isConst ref = false)
    (hp : Puts env ⟨ref, .leaf l⟩ v d) : leafDatum l v = .ok d := by
  cases hd : leafDatum l v with
  | error e => exact absurd hp (rejects_not_puts hc (rejects_of_error ref l v e hd))
  | ok d' =>
    have h1 := (hp (fun _ => ⟨[], 0, 0, []⟩) .init (.immediate v) .noDelay rfl (by simp [HS.init]) hc).2.1 (.inl (by simp))
    have h2 := ((puts_of_datum h ref l v d' hd) (fun _ => ⟨[], 0, 0, []⟩) .init (.immediate v) .noDelay rfl (by simp [HS.init]) hc).2.1
      (.inl (by simp))
    rw [h1] at h2
    have := congrArg HS.driven h2
    simpa using this.symm

theorem putMode_eq (a : SetAct) : mapPutValueMode a = putMode a := by cases a <;> rfl

theorem fliAct_ok (o : FObj) (a : SetAct) (x : FVal) (t : PyStr) :
    (o.isVar = false → fliAct o a x t = some (signalCall x t a)) ∧
    (o.isVar = true → a = .deposit ∨ a = .noDelay → fliAct o a x t = some (.setVar x)) := by
  constructor
  · intro h; cases a <;> simp [fliAct, h, signalCall]
  · rintro h (rfl | rfl) <;> simp [fliAct, h]

/-! ## C119: logic values -/

/-- **C119.** VHPI, arrays of std_logic: the elements a value means, in order, are what the simulator stores, and what is
read; other values are refused. -/
theorem C119_vhpi_array (env : Env) (h : Plain env) (ref : Ref) (n : Nat) (hn : 0 < n) (v : PyVal) :
    (∀ l, meant n v = some l →
      VhpiStores env ref ⟨.logicVec, n⟩ false v (.enumvs (l.map position)) ∧
      VhpiReads ⟨.logicVec, n⟩ false (.enumvs (l.map position)) (.larr l)) ∧
    (meant n v = none → ∃ e, Rejects env ⟨ref, .leaf (.larray n)⟩ v e) := by
  refine ⟨?_, ?_⟩
  · intro l hl
    obtain ⟨d, hd, hlen, hc⟩ := larray_datum n hn v l hl
    refine ⟨⟨d, puts_of_datum h ref _ v d hd, ?_⟩, ?_⟩
    · intro buf a hb
      change buf.length = n at hb
      rcases hc with ⟨w, rfl, hw, rfl⟩ | rfl
      · simp only [vhpiSet, vhpiSetInt, VObj.numElems, Option.map_some, putMode_eq]
        rw [show (2 : Nat) = position .F0 from rfl, show (3 : Nat) = position .F1 from rfl, putBits_meant position n hw w buf hb]
      · simp only [vhpiSet, vhpiSetBin, VObj.numElems, length_chrs, hlen, ne_eq, not_true, if_false, Option.map_some, putMode_eq]
        rw [putChars_meant chr2vhpi position chr2vhpi_chr l buf (by omega)]
    · have : n ≠ 0 := by omega
      simp only [VhpiReads, vhpiLeaf, leafGet, vhpiReading, VObj.numElems, this, vhpiBinStr, reduceCtorEq, false_or, if_false,
        filterMap_all]
  · intro hv
    obtain ⟨e, he⟩ := larray_reject n hn v hv
    exact ⟨e, rejects_of_error ref _ v e he⟩

/-- The hypotheses are met. -/
example : meant 4 (.int (-3)) = some [.F1, .F1, .F0, .F1] ∧ meant 4 (.str "1_zX-".toList) = some [.F1, .Z, .X, .D] ∧
    meant 4 (.int 16) = none ∧ vhpiSet ⟨.logicVec, 4⟩ [0, 0, 0, 0] .force (.int (-3)) = some (.enumvs [3, 3, 2, 3], .forcePropagate) := by
  decide +kernel

/-- **C119.** VHPI, a std_logic. -/
theorem C119_vhpi_scalar (env : Env) (h : Plain env) (ref : Ref) (v : PyVal) :
    (∀ x, meantScalar v = some x →
      VhpiStores env ref ⟨.logic, 1⟩ false v (.enumv (position x)) ∧
      VhpiReads ⟨.logic, 1⟩ false (.enumv (position x)) (.logic ⟨.logic, x⟩)) ∧
    (meantScalar v = none → ∃ e, Rejects env ⟨ref, .leaf .logic⟩ v e) := by
  refine ⟨?_, ?_⟩
  · intro x hx
    refine ⟨⟨_, puts_of_datum h ref _ v _ (scalar_datum v x hx), ?_⟩, ?_⟩
    · intro buf a _
      simp [vhpiSet, vhpiSetBin, firstChar, chr2vhpi_chr, putMode_eq]
    · cases x <;> rfl
  · intro hv
    obtain ⟨e, he⟩ := scalar_reject v hv
    exact ⟨e, rejects_of_error ref _ v e he⟩

example : meantScalar (.str ['z']) = some .Z ∧ meantScalar (.int 2) = none := by decide +kernel

/-- The places of logic elements in the declaration of a type, as the FLI uses them. -/
theorem fli_array_aux (env : Env) (h : Plain env) (ref : Ref) (o : FObj) (hk : o.kind = .logicArr) (hn : 0 < o.size)
    (pos : Logic → Nat) (hp : ∀ x : Logic, enumMap o.lits x.chr = pos x) (v : PyVal) (l : List Logic)
    (hl : meant o.size v = some l) : FliStores env ref o v (.codes (l.map pos)) ("2#".toList ++ chrs l) := by
  obtain ⟨d, hd, hlen, hc⟩ := larray_datum o.size hn v l hl
  refine ⟨d, puts_of_datum h ref _ v d (by simpa [fliLeaf, hk, FObj.numElems] using hd), ?_⟩
  intro buf a hb
  simp only [FObj.numElems, hk] at hb
  rcases hc with ⟨w, rfl, hw, rfl⟩ | rfl
  · have e0 : enumMap o.lits '0' = pos .F0 := hp .F0
    have e1 : enumMap o.lits '1' = pos .F1 := hp .F1
    simp only [fliSet, hk, fliLogicSetInt, FObj.numElems, reduceCtorEq, if_false, e0, e1]
    rw [putBits_meant pos o.size hw w buf hb, forceBits_meant o.size hw w]
    exact fliAct_ok o a _ _
  · simp only [fliSet, hk, fliLogicSetBin, FObj.numElems, reduceCtorEq, if_false, length_chrs, hlen, ne_eq, not_true]
    rw [putChars_meant (enumMap o.lits) pos hp l buf (by omega)]
    exact fliAct_ok o a _ _

/-- **C119.** FLI, arrays of std_logic. -/
theorem C119_fli_array (env : Env) (h : Plain env) (ref : Ref) (isVar : Bool) (n : Nat) (hn : 0 < n) (v : PyVal) :
    (∀ l, meant n v = some l →
      FliStores env ref ⟨.logicArr, isVar, n, stdLits⟩ v (.codes (l.map position)) ("2#".toList ++ chrs l) ∧
      FliReads ⟨.logicArr, isVar, n, stdLits⟩ (.codes (l.map position)) (.larr l)) ∧
    (meant n v = none → ∃ e, Rejects env ⟨ref, .leaf (.larray n)⟩ v e) := by
  refine ⟨?_, ?_⟩
  · intro l hl
    refine ⟨fli_array_aux env h ref _ rfl hn position enumMap_std v l hl, ?_⟩
    simp only [FliReads, fliLeaf, leafGet, fliReading, filterMap_std]
  · intro hv
    obtain ⟨e, he⟩ := larray_reject n hn v hv
    exact ⟨e, rejects_of_error ref _ v e he⟩

/-- **C119.** FLI, a std_logic. -/
theorem C119_fli_scalar (env : Env) (h : Plain env) (ref : Ref) (isVar : Bool) (n : Nat) (v : PyVal) :
    (∀ x, meantScalar v = some x →
      FliStores env ref ⟨.logic, isVar, n, stdLits⟩ v (.scalar (position x)) ("2#".toList ++ [x.chr]) ∧
      FliReads ⟨.logic, isVar, n, stdLits⟩ (.scalar (position x)) (.logic ⟨.logic, x⟩)) ∧
    (meantScalar v = none → ∃ e, Rejects env ⟨ref, .leaf .logic⟩ v e) := by
  refine ⟨?_, ?_⟩
  · intro x hx
    refine ⟨⟨_, puts_of_datum h ref _ v _ (scalar_datum v x hx), ?_⟩, ?_⟩
    · intro buf a _
      simp only [fliSet, fliLogicSetBin, if_true, List.length_singleton, ne_eq, not_true, if_false, firstChar,
        List.headD_cons, enumMap_std]
      exact fliAct_ok ⟨.logic, isVar, n, stdLits⟩ a _ _
    · have := litOf_std x
      simp only [FliReads, fliLeaf, leafGet, fliReading, Int.toNat_natCast, this]
      cases x <;> rfl
  · intro hv
    obtain ⟨e, he⟩ := scalar_reject v hv
    exact ⟨e, rejects_of_error ref _ v e he⟩

/-- **C119.** FLI, a std_logic written as a number by a user of the GPI (Python writes texts): 0 is `0`, all others are `1`. -/
theorem C119_fli_scalar_number (isVar : Bool) (n : Nat) (buf : List Nat) (a : SetAct) (v : Int) (hv : -2 ^ 31 ≤ v ∧ v < 2 ^ 31) (x : Logic)
    (hx : x = if v = 0 then .F0 else .F1) :
    (isVar = false → fliSet ⟨.logic, isVar, n, stdLits⟩ buf a (.int v) = some (signalCall (.scalar (position x)) ("2#".toList ++ [x.chr]) a)) ∧
    (isVar = true → a = .deposit ∨ a = .noDelay →
      fliSet ⟨.logic, isVar, n, stdLits⟩ buf a (.int v) = some (.setVar (.scalar (position x)))) := by
  have e : fliSet ⟨.logic, isVar, n, stdLits⟩ buf a (.int v) =
      fliAct ⟨.logic, isVar, n, stdLits⟩ a (.scalar (position x)) ("2#".toList ++ [x.chr]) := by
    simp only [fliSet, fliLogicSetInt, if_true, toI32_id v hv]
    by_cases h : v = 0
    · rw [if_pos h] at hx
      subst hx
      rw [if_neg (fun h' => h' h), if_neg (fun h' => h' h)]
      have := enumMap_std .F0
      exact congrArg (fun k : Nat => fliAct ⟨.logic, isVar, n, stdLits⟩ a (.scalar k) "2#0".toList) this
    · rw [if_neg h] at hx
      subst hx
      rw [if_pos h, if_pos h]
      have := enumMap_std .F1
      exact congrArg (fun k : Nat => fliAct ⟨.logic, isVar, n, stdLits⟩ a (.scalar k) "2#1".toList) this
  rw [e]
  exact fliAct_ok ⟨.logic, isVar, n, stdLits⟩ a _ _

example : fliSet ⟨.logic, false, 1, stdLits⟩ [] .deposit (.int 5) = some (.setSignal (.scalar 3)) := by decide +kernel

/-- The same for arrays of bit: what is read is what was assigned. -/
def C119_fli_bits_full : Prop :=
  ∀ (env : Env) (ref : Ref) (n : Nat) (v : PyVal) (l : List Logic), Plain env → 0 < n → meant n v = some l →
    ∃ x t, FliStores env ref ⟨.logicArr, false, n, bitLits⟩ v x t ∧ FliReads ⟨.logicArr, false, n, bitLits⟩ x (.larr l)

/-- An X assigned to a bit is accepted and stored as 0. -/
theorem C119_fli_bits_counterexample : ¬ C119_fli_bits_full := by
  intro H
  obtain ⟨x, t, ⟨d, hp, hs⟩, hr⟩ := H HandleEx.env ⟨0, []⟩ 1 (.str ['X']) [.X] HandleEx.plain (by omega) (by decide +kernel)
  have hd := puts_datum HandleEx.plain rfl hp
  have : d = .bin ['X'] := by
    have h2 : leafDatum (.larray 1) (.str ['X']) = .ok (.bin ['X']) := by decide +kernel
    have h3 : leafDatum (.larray 1) (.str ['X']) = .ok d := hd
    rw [h2] at h3; cases h3; rfl
  subst this
  have h1 := (hs [0] .deposit rfl).1 rfl
  have h2 : fliSet ⟨.logicArr, false, 1, bitLits⟩ [0] .deposit (.bin ['X']) = some (.setSignal (.codes [0])) := by decide +kernel
  rw [h2] at h1
  simp only [signalCall, Option.some.injEq, FCall.setSignal.injEq] at h1
  subst h1
  have h4 : (fliReading ⟨.logicArr, false, 1, bitLits⟩ (.codes [0])).bin = [.F0] := by decide +kernel
  simp only [FliReads, fliLeaf, leafGet, h4] at hr
  simp at hr

/-- **C119.** FLI, arrays of bit, for values without other elements than 0 and 1. -/
theorem C119_fli_bits_partial (env : Env) (h : Plain env) (ref : Ref) (isVar : Bool) (n : Nat) (hn : 0 < n) (v : PyVal) (l : List Logic)
    (hl : meant n v = some l) (hb : ∀ x ∈ l, x = .F0 ∨ x = .F1) :
    FliStores env ref ⟨.logicArr, isVar, n, bitLits⟩ v (.codes (l.map bitPosition)) ("2#".toList ++ chrs l) ∧
    FliReads ⟨.logicArr, isVar, n, bitLits⟩ (.codes (l.map bitPosition)) (.larr l) := by
  refine ⟨fli_array_aux env h ref _ rfl hn bitPosition enumMap_bit v l hl, ?_⟩
  simp only [FliReads, fliLeaf, leafGet, fliReading, filterMap_bit l hb]

example : meant 3 (.int 5) = some [.F1, .F0, .F1] ∧
    fliSet ⟨.logicArr, true, 3, bitLits⟩ [7, 7, 7] .noDelay (.int 5) = some (.setVar (.codes [1, 0, 1])) := by decide +kernel

/-- **C119.** VPI: the value handed over puts the elements meant on the object. -/
theorem C119_vpi_array (env : Env) (h : Plain env) (ref : Ref) (n : Nat) (hn : 0 < n) (v : PyVal) :
    (∀ l, meant n v = some l → ∃ d, Puts env ⟨ref, .leaf (.larray n)⟩ v d ∧
      ∀ c cur a, a ≠ .release → vpiElements n (vpiSet c cur a d).1 = some l) ∧
    (meant n v = none → ∃ e, Rejects env ⟨ref, .leaf (.larray n)⟩ v e) := by
  refine ⟨?_, ?_⟩
  · intro l hl
    obtain ⟨d, hd, hlen, hc⟩ := larray_datum n hn v l hl
    refine ⟨d, puts_of_datum h ref _ v d hd, ?_⟩
    intro c cur a ha
    rcases hc with ⟨w, rfl, hw, rfl⟩ | rfl
    · have : vpiElements n (.int (toI32 w)) = some (bitsOfInt n w) := by
        simp only [vpiElements, bitsOfInt, toI32_mod w n hw]
      rw [← this]
      cases a <;> first | rfl | (simp only [vpiSet]; split <;> rfl) | exact absurd rfl ha
    · have : vpiElements n (.bin (chrs l)) = some l := by
        simp [vpiElements, length_chrs, hlen, mapM_chrs]
      conv => rhs; rw [← this]
      cases a <;> first | rfl | (simp only [vpiSet]; split <;> rfl) | exact absurd rfl ha
  · intro hv
    obtain ⟨e, he⟩ := larray_reject n hn v hv
    exact ⟨e, rejects_of_error ref _ v e he⟩

/-- **C119.** VPI, one element. -/
theorem C119_vpi_scalar (env : Env) (h : Plain env) (ref : Ref) (v : PyVal) (x : Logic) (hx : meantScalar v = some x) :
    ∃ d, Puts env ⟨ref, .leaf .logic⟩ v d ∧ ∀ c cur a, a ≠ .release → (vpiSet c cur a d).1 = .bin [x.chr] := by
  refine ⟨_, puts_of_datum h ref _ v _ (scalar_datum v x hx), ?_⟩
  intro c cur a ha
  cases a <;> first | rfl | (simp only [vpiSet]; split <;> rfl) | exact absurd rfl ha

/-! ## C120: numbers and enumerations -/

theorem integer_datum {n : Nat} {s : Sgn} {v : Int} (hn : 0 < n) (hn' : n ≤ 32) (hv : fits n s v) :
    leafDatum (.integer n s) (.int v) = .ok (.int v) ∧ leafDatum (.enum n s) (.int v) = .ok (.int v) := by
  have hr := (inRange_iff n hn s v).2 hv
  simp [leafDatum, integerInt, enumInt, hr, hn']

theorem get_int {n : Nat} {s : Sgn} {v : Int} {rd : Reading} (hn : n ≤ 32) (hs : s ≠ .unsigned) (hv : leMax n s v = true)
    (hr : rd.long = v) : leafGet (.integer n s) rd = .ok (.int v) ∧ leafGet (.enum n s) rd = .ok (.int v) := by
  simp [leafGet, intGet, hn, hr, hv, hs, bind, Except.bind]

/-- **C120.** VHPI, integers: the number itself. -/
theorem C120_vhpi_integer (env : Env) (h : Plain env) (ref : Ref) (size : Nat) (v : Int) :
    (is32 v → VhpiStores env ref ⟨.int, size⟩ true (.int v) (.intg v) ∧ VhpiReads ⟨.int, size⟩ true (.intg v) (.int v)) ∧
    (¬ is32 v → Rejects env ⟨ref, .leaf (vhpiLeaf ⟨.int, size⟩ true)⟩ (.int v) .valueError) := by
  refine ⟨?_, ?_⟩
  · intro hv
    have hf : fits 32 .signed v := hv
    refine ⟨⟨_, puts_of_datum h ref _ _ _ (integer_datum (by omega) (by omega) hf).1, ?_⟩, ?_⟩
    · intro buf a _
      simp [vhpiSet, vhpiSetInt, toI32_id v hv, putMode_eq]
    · exact (get_int (n := 32) (s := .signed) (by omega) (by simp) ((leSignedMax_iff 32 (by omega) v).2 hv.2) (toI32_id v hv)).1
  · intro hv
    exact rejects_of_error ref _ _ _ (integerInt_error 32 (by omega) .signed v hv).1

example : is32 (-(2 ^ 31)) ∧ ¬ is32 (2 ^ 31) := by unfold is32; omega

/-- **C120.** VHPI, enumerations of at most 256 literals and of more: the literal at a position. -/
theorem C120_vhpi_enum (env : Env) (h : Plain env) (ref : Ref) (size p : Nat) :
    (p < 256 → VhpiStores env ref ⟨.smallEnum, size⟩ false (.int p) (.smallenumv p) ∧
      VhpiReads ⟨.smallEnum, size⟩ false (.smallenumv p) (.int p)) ∧
    (p < 2 ^ 31 → VhpiStores env ref ⟨.enum, size⟩ false (.int p) (.enumv p) ∧
      VhpiReads ⟨.enum, size⟩ false (.enumv p) (.int p)) := by
  refine ⟨?_, ?_⟩
  · intro hp
    have hf : fits 8 .unknown p := by simp only [fits]; omega
    have ht := toI32_id p (by unfold is32; omega)
    refine ⟨⟨_, puts_of_datum h ref _ _ _ (integer_datum (by omega) (by omega) hf).2, ?_⟩, ?_⟩
    · intro buf a _
      have : ((p : Int) % 256).toNat = p := by omega
      simp [vhpiSet, vhpiSetInt, ht, putMode_eq, this]
    · have : leUnsignedMax 8 p = true := by rw [leUnsignedMax_iff]; omega
      simp [VhpiReads, vhpiLeaf, VObj.numElems, vhpiSigned, leafGet, intGet, vhpiReading, vhpiIntVal, ht, leMax, this, bind, Except.bind]
  · intro hp
    have hf : fits 32 .unknown p := by simp only [fits]; omega
    have ht := toI32_id p (by unfold is32; omega)
    refine ⟨⟨_, puts_of_datum h ref _ _ _ (integer_datum (by omega) (by omega) hf).2, ?_⟩, ?_⟩
    · intro buf a _
      have : ((p : Int) % 4294967296).toNat = p := by omega
      simp [vhpiSet, vhpiSetInt, ht, putMode_eq, this]
    · have : leUnsignedMax 32 p = true := by rw [leUnsignedMax_iff]; omega
      simp [VhpiReads, vhpiLeaf, VObj.numElems, vhpiSigned, leafGet, intGet, vhpiReading, vhpiIntVal, ht, leMax, this, bind, Except.bind]

/-- Characters (and booleans) are integers of 8 bits for Python; a character can be written and read by its position. -/
def C120_vhpi_char_full : Prop :=
  ∀ (env : Env) (ref : Ref) (p : Nat), Plain env → p < 256 →
    VhpiStores env ref ⟨.char, 1⟩ true (.int p) (.ch (Fin.ofNat 256 p)) ∧ VhpiReads ⟨.char, 1⟩ true (.ch (Fin.ofNat 256 p)) (.int p)

/-- Not in the second half of the character set. -/
theorem C120_vhpi_char_counterexample : ¬ C120_vhpi_char_full := by
  intro H
  obtain ⟨⟨d, hp, _⟩, _⟩ := H HandleEx.env ⟨0, []⟩ 200 HandleEx.plain (by omega)
  have hd := puts_datum HandleEx.plain rfl hp
  have h2 : leafDatum (.integer 8 .signed) (.int 200) = .error .valueError := by decide +kernel
  have h3 : leafDatum (.integer 8 .signed) (.int 200) = .ok d := hd
  rw [h2] at h3; cases h3

/-- **C120.** The first half; booleans. -/
theorem C120_vhpi_char_partial (env : Env) (h : Plain env) (ref : Ref) (size p : Nat) (hp : p < 128) :
    (VhpiStores env ref ⟨.char, size⟩ true (.int p) (.ch (Fin.ofNat 256 p)) ∧
      VhpiReads ⟨.char, size⟩ true (.ch (Fin.ofNat 256 p)) (.int p)) ∧
    (VhpiStores env ref ⟨.smallEnum, size⟩ true (.int p) (.smallenumv p) ∧
      VhpiReads ⟨.smallEnum, size⟩ true (.smallenumv p) (.int p)) := by
  have hf : fits 8 .signed p := by simp only [fits]; omega
  have ht := toI32_id p (by unfold is32; omega)
  have hm : leSignedMax 8 p = true := by rw [leSignedMax_iff 8 (by omega)]; omega
  have hd := (integer_datum (by omega) (by omega) hf).1
  have hmod : ((p : Int) % 256).toNat = p := by omega
  have hmod' : p % 256 = p := by omega
  refine ⟨⟨⟨_, puts_of_datum h ref _ _ _ hd, ?_⟩, ?_⟩, ⟨_, puts_of_datum h ref _ _ _ hd, ?_⟩, ?_⟩
  · intro buf a _
    have h1 : ¬ ((p : Int) > 127 ∨ (p : Int) < -128) := by omega
    simp only [vhpiSet, vhpiSetInt, ht, h1, if_false, hmod, Option.map_some, putMode_eq]
  · have hval : ((Fin.ofNat 256 p : Fin 256).val : Int) = p := by simp [hmod']
    exact (get_int (n := 8) (s := .signed) (by omega) (by simp) hm (by simp only [vhpiReading, vhpiIntVal, hval, ht])).1
  · intro buf a _
    simp [vhpiSet, vhpiSetInt, ht, putMode_eq, hmod]
  · exact (get_int (n := 8) (s := .signed) (by omega) (by simp) hm (by simp only [vhpiReading, vhpiIntVal, ht])).1

example : VhpiReads ⟨.char, 1⟩ true (.ch 65) (.int 65) ∧ VhpiReads ⟨.char, 1⟩ true (.ch 200) (.int (-56)) := by
  have h1 : (vhpiReading ⟨.char, 1⟩ (.ch 65)).long = 65 := by decide +kernel
  have h2 : (vhpiReading ⟨.char, 1⟩ (.ch 200)).long = 200 := by decide +kernel
  simp [VhpiReads, vhpiLeaf, VObj.numElems, vhpiSigned, leafGet, intGet, h1, h2, leMax, leSignedMax, bind, Except.bind]

/-- Every integer that is accepted for an object of 64 bits is stored. -/
def C120_vhpi_long_full : Prop :=
  ∀ (env : Env) (ref : Ref) (v : Int), Plain env → fits 64 .signed v → VhpiStores env ref ⟨.longInt, 64⟩ true (.int v) (.longintg v)

/-- It is accepted, but dropped. -/
theorem C120_vhpi_long_counterexample : ¬ C120_vhpi_long_full ∧
    ∀ (env : Env) (ref : Ref) (v : Int), Plain env → fits 64 .signed v →
      ∃ d, Puts env ⟨ref, .leaf (vhpiLeaf ⟨.longInt, 64⟩ true)⟩ (.int v) d ∧ ∀ buf a, vhpiSet ⟨.longInt, 64⟩ buf a d = none := by
  have key : ∀ v d, leafDatum (.integer 64 .signed) (.int v) = .ok d → ∀ buf a, vhpiSet ⟨.longInt, 64⟩ buf a d = none := by
    intro v d hd buf a
    simp only [leafDatum, integerInt] at hd
    split at hd
    · cases hd
    · simp only [show ¬ (64 ≤ 32) by omega, if_false, Except.ok.injEq] at hd
      subst hd
      rfl
  refine ⟨?_, ?_⟩
  · intro H
    obtain ⟨d, hp, hs⟩ := H HandleEx.env ⟨0, []⟩ 5 HandleEx.plain (by simp only [fits]; omega)
    have hd := puts_datum HandleEx.plain rfl hp
    have h1 := hs (List.replicate 64 0) .deposit (by simp [VObj.numElems])
    rw [key 5 d hd] at h1
    cases h1
  · intro env ref v h hv
    obtain ⟨d, hd, _⟩ := integerInt_ok 64 (by omega) .signed v hv
    have hd' : leafDatum (.integer 64 .signed) (.int v) = .ok d := by simpa [leafDatum] using hd
    exact ⟨d, puts_of_datum h ref _ _ d hd', key v d hd'⟩

/-- Only literals of the enumeration are handed to the simulator. -/
def C120_vhpi_enum_range_full : Prop :=
  ∀ (env : Env) (ref : Ref) (size : Nat) (v : Int) (c : Nat), Plain env →
    VhpiStores env ref ⟨.smallEnum, size⟩ false (.int v) (.smallenumv c) → 0 ≤ v

/-- A negative number is accepted, and is another literal, or none. -/
theorem C120_vhpi_enum_range_counterexample : ¬ C120_vhpi_enum_range_full := by
  intro H
  have := H HandleEx.env ⟨0, []⟩ 1 (-1) 255 HandleEx.plain
    ⟨.int (-1), puts_of_datum HandleEx.plain _ _ _ _ (by decide +kernel), by
      intro buf a _
      have : toI32 (-1) = -1 := by decide
      simp [vhpiSet, vhpiSetInt, this, putMode_eq]⟩
  omega

/-- FLI, integers: the number, also if it is forced. -/
def C120_fli_integer_full : Prop :=
  ∀ (env : Env) (ref : Ref) (isVar : Bool) (size : Nat) (v : Int), Plain env → is32 v →
    FliStores env ref ⟨.int, isVar, size, []⟩ (.int v) (.scalar v) (decimal v)

/-- The least number cannot be forced: its absolute value is not an `int`. -/
theorem C120_fli_integer_counterexample : ¬ C120_fli_integer_full := by
  intro H
  obtain ⟨d, hp, hs⟩ := H HandleEx.env ⟨0, []⟩ false 1 (-(2 ^ 31)) HandleEx.plain (by unfold is32; omega)
  have hd := puts_datum HandleEx.plain rfl hp
  have h2 : leafDatum (.integer 32 .signed) (.int (-(2 ^ 31))) = .ok (.int (-(2 ^ 31))) := by decide +kernel
  have h3 : leafDatum (.integer 32 .signed) (.int (-(2 ^ 31))) = .ok d := hd
  rw [h2] at h3; cases h3
  have h1 := (hs (List.replicate 32 0) .force (by simp [FObj.numElems])).1 rfl
  revert h1
  decide +kernel

/-- **C120.** All other numbers; the least one, if it is not forced. -/
theorem C120_fli_integer_partial (env : Env) (h : Plain env) (ref : Ref) (isVar : Bool) (size : Nat) (v : Int) (hv : is32 v) :
    (v ≠ -(2 ^ 31) → FliStores env ref ⟨.int, isVar, size, []⟩ (.int v) (.scalar v) (decimal v)) ∧
    (∃ t, FliStores env ref ⟨.int, isVar, size, []⟩ (.int v) (.scalar v) t) ∧
    FliReads ⟨.int, isVar, size, []⟩ (.scalar v) (.int v) := by
  have hf : fits 32 .signed v := hv
  have hd := (integer_datum (by omega) (by omega) hf).1
  have hstore : FliStores env ref ⟨.int, isVar, size, []⟩ (.int v) (.scalar v)
      ((if v < 0 then ['-'] else []) ++ "10#".toList ++ absText v) := by
    refine ⟨_, puts_of_datum h ref _ _ _ hd, ?_⟩
    intro buf a _
    simp only [fliSet, toI32_id v hv, fliIntSetInt]
    exact fliAct_ok ⟨.int, isVar, size, []⟩ a _ _
  refine ⟨?_, ⟨_, hstore⟩, ?_⟩
  · intro hne
    have : absText v = Nat.toDigits 10 v.natAbs := by unfold absText decDigits; rw [if_neg hne]
    rw [this] at hstore
    exact hstore
  · exact (get_int (n := 32) (s := .signed) (by omega) (by simp) ((leSignedMax_iff 32 (by omega) v).2 hv.2) rfl).1

example : decimal (-17) = "-10#17".toList ∧ decimal 4 = "10#4".toList := by decide +kernel

/-- FLI, enumerations: the literal at each position can be written and read. -/
def C120_fli_enum_full : Prop :=
  ∀ (env : Env) (ref : Ref) (isVar : Bool) (lits : List PyStr) (p : Nat), Plain env → p < lits.length →
    (∃ t, FliStores env ref ⟨.enum, isVar, 0, lits⟩ (.int p) (.scalar p) t) ∧ FliReads ⟨.enum, isVar, 0, lits⟩ (.scalar p) (.int p)

/-- The third literal can neither be written nor read: the object has one element, a bit for Python. -/
theorem C120_fli_enum_counterexample : ¬ C120_fli_enum_full ∧
    (∀ isVar lits, FliReads ⟨.enum, isVar, 0, lits⟩ (.scalar 2) (.int 0)) ∧
    ∀ env ref isVar lits, Rejects env ⟨ref, .leaf (fliLeaf ⟨.enum, isVar, 0, lits⟩)⟩ (.int 2) .valueError := by
  have hr : ∀ env ref isVar lits, Rejects env ⟨ref, .leaf (fliLeaf ⟨.enum, isVar, 0, lits⟩)⟩ (.int 2) .valueError := by
    intro env ref isVar lits
    exact rejects_of_error ref _ _ _ (by
      have : leafDatum (.enum 1 .unknown) (.int 2) = .error .valueError := by decide +kernel
      simpa [fliLeaf, FObj.numElems, fliSigned] using this)
  refine ⟨?_, ?_, hr⟩
  · intro H
    obtain ⟨⟨t, d, hp, _⟩, _⟩ := H HandleEx.env ⟨0, []⟩ false [['a'], ['b'], ['c']] 2 HandleEx.plain (by decide)
    exact rejects_not_puts rfl (hr _ _ _ _) hp
  · intro isVar lits
    have : intGet 1 .unknown (fliReading ⟨.enum, isVar, 0, lits⟩ (.scalar 2)) = .ok 0 := by
      simp [intGet, fliReading, leMax, leUnsignedMax, bind, Except.bind]
    simp only [FliReads, fliLeaf, FObj.numElems, fliSigned, leafGet]
    rw [show (if FKind.enum = FKind.int then Sgn.signed else Sgn.unknown) = .unknown from rfl, this]
    rfl

/-- **C120.** The first two literals can. -/
theorem C120_fli_enum_partial (env : Env) (h : Plain env) (ref : Ref) (isVar : Bool) (lits : List PyStr) (p : Nat) (hl : p < lits.length)
    (hp : p < 2) :
    FliStores env ref ⟨.enum, isVar, 0, lits⟩ (.int p) (.scalar p) (decimal p) ∧
    FliReads ⟨.enum, isVar, 0, lits⟩ (.scalar p) (.int p) := by
  have hf : fits 1 .unknown p := by simp only [fits]; omega
  have ht := toI32_id p (by unfold is32; omega)
  refine ⟨⟨_, puts_of_datum h ref _ _ _ (integer_datum (by omega) (by omega) hf).2, ?_⟩, ?_⟩
  · intro buf a _
    have h1 : ¬ ((p : Int) > (lits.length : Nat) ∨ (p : Int) < 0) := by omega
    have h2 : "10#".toList ++ absText p = decimal p := by
      have : ¬ ((p : Int) < 0) := by omega
      have h3 : ¬ ((p : Int) = -(2 ^ 31)) := by omega
      simp only [decimal, absText, this, if_false, h3, decDigits, List.nil_append]
    simp only [fliSet, ht, fliEnumSetInt, h1, if_false, h2]
    exact fliAct_ok ⟨.enum, isVar, 0, lits⟩ a _ _
  · have : leUnsignedMax 1 p = true := by rw [leUnsignedMax_iff]; omega
    simp [FliReads, fliLeaf, FObj.numElems, fliSigned, leafGet, intGet, fliReading, leMax, this, bind, Except.bind]

/-- What is handed to the simulator for an enumeration is the position of a literal. -/
def C120_fli_enum_range_full : Prop :=
  ∀ (env : Env) (ref : Ref) (isVar : Bool) (lits : List PyStr) (v : PyVal) (x : Int) (t : PyStr), Plain env → lits ≠ [] →
    env.isConst ref = false → FliStores env ref ⟨.enum, isVar, 0, lits⟩ v (.scalar x) t → 0 ≤ x ∧ x < lits.length

/-- Not for an enumeration of one literal: the check of the range is off by one. -/
theorem C120_fli_enum_range_counterexample : ¬ C120_fli_enum_range_full := by
  intro H
  have := H HandleEx.env ⟨0, []⟩ false [['a']] (.int 1) 1 "10#1".toList HandleEx.plain (by simp) rfl
    ⟨.int 1, puts_of_datum HandleEx.plain _ _ _ _ (by decide +kernel), by
      intro buf a _
      refine ⟨fun _ => ?_, fun hv => by simp at hv⟩
      have : absText (toI32 1) = ['1'] := by decide +kernel
      have h1 : toI32 1 = 1 := by decide
      simp only [fliSet, fliEnumSetInt, this]
      cases a <;> simp [h1, fliAct, signalCall]⟩
  simp at this

/-- **C120.** For enumerations of two literals or more it is. -/
theorem C120_fli_enum_range_partial (env : Env) (h : Plain env) (ref : Ref) (isVar : Bool) (lits : List PyStr) (v : PyVal) (x : Int)
    (t : PyStr) (hc : env.isConst ref = false) (h2 : 2 ≤ lits.length)
    (hs : FliStores env ref ⟨.enum, isVar, 0, lits⟩ v (.scalar x) t) : 0 ≤ x ∧ x < lits.length := by
  obtain ⟨d, hp, hs⟩ := hs
  have hd := puts_datum h hc hp
  change leafDatum (.enum 1 .unknown) v = .ok d at hd
  cases v with
  | int v =>
    simp only [leafDatum, enumInt] at hd
    split at hd
    · cases hd
    · rename_i hr
      simp only [show (1 : Nat) ≤ 32 by omega, if_true, Except.ok.injEq] at hd
      subst hd
      have hf : fits 1 .unknown v := by
        rw [← inRange_iff 1 (by omega)]
        simpa using hr
      simp only [fits] at hf
      have ht := toI32_id v (by unfold is32; omega)
      have hx : fliSet ⟨.enum, isVar, 0, lits⟩ [0] .deposit (.int v) = some (if isVar then .setVar (.scalar x) else .setSignal (.scalar x)) := by
        cases isVar
        · exact (hs [0] .deposit rfl).1 rfl
        · exact (hs [0] .deposit rfl).2 rfl (.inl rfl)
      simp only [fliSet, ht, fliEnumSetInt] at hx
      split at hx
      · cases hx
      · have : v = x := by cases isVar <;> simpa [fliAct] using hx
        omega
  | _ => simp [leafDatum] at hd

/-! ## C121: strings -/

theorem takeWhile_nz {b : List Byte} (h : (0 : Byte) ∉ b) : b.takeWhile (· ≠ 0) = b := by
  induction b with
  | nil => rfl
  | cons x b ih =>
    simp only [List.mem_cons, not_or] at h
    rw [List.takeWhile_cons, if_pos (by simpa using Ne.symm h.1), ih h.2]

theorem takeWhile_pad {b : List Byte} (h : (0 : Byte) ∉ b) (k : Nat) : (b ++ List.replicate k 0).takeWhile (· ≠ 0) = b := by
  induction b with
  | nil => cases k <;> simp [List.replicate_succ]
  | cons x b ih =>
    simp only [List.mem_cons, not_or] at h
    rw [List.cons_append, List.takeWhile_cons, if_pos (by simpa using Ne.symm h.1), ih h.2]

theorem strncpy_eq {b : List Byte} {n : Nat} (h : (0 : Byte) ∉ b) (hl : b.length ≤ n) :
    strncpy b n = b ++ List.replicate (n - b.length) 0 := by
  simp only [strncpy, takeWhile_nz h, List.take_of_length_le hl]

/-- **C121.** Bytes assigned to a string of `n` characters are its first characters, the rest are NUL; reading gives the
bytes assigned. More than `n` bytes are refused. -/
theorem C121_vhpi_string (env : Env) (h : Plain env) (ref : Ref) (n : Nat) (b : List Byte) :
    ((0 : Byte) ∉ b → b.length ≤ n →
      VhpiStores env ref ⟨.str, n⟩ false (.bytes b) (.str (b ++ List.replicate (n - b.length) 0)) ∧
      VhpiReads ⟨.str, n⟩ false (.str (b ++ List.replicate (n - b.length) 0)) (.bytes b)) ∧
    (n < b.length → Rejects env ⟨ref, .leaf (.fixedString n)⟩ (.bytes b) .valueError) := by
  refine ⟨?_, ?_⟩
  · intro h0 hl
    refine ⟨⟨.str b, puts_of_datum h ref _ _ _ (by simp [vhpiLeaf, VObj.numElems, leafDatum]; omega), ?_⟩, ?_⟩
    · intro buf a _
      simp [vhpiSet, vhpiSetStr, VObj.numElems, strncpy_eq h0 hl, putMode_eq]
    · have : (vhpiReading ⟨.str, n⟩ (.str (b ++ List.replicate (n - b.length) 0))).str = b := by
        show (if n = 0 then [] else cString (b ++ List.replicate (n - b.length) 0)) = b
        by_cases hz : n = 0
        · have : b = [] := by cases b <;> simp_all
          simp [hz, this]
        · rw [if_neg hz, cString, takeWhile_pad h0]
      simp only [VhpiReads, vhpiLeaf, leafGet, this]
  · intro hl
    exact rejects_of_error ref _ _ _ (by simp [leafDatum, hl])

/-- **C121.** The same for the FLI. -/
theorem C121_fli_string (env : Env) (h : Plain env) (ref : Ref) (isVar : Bool) (n : Nat) (b : List Byte) (h0 : (0 : Byte) ∉ b)
    (hl : b.length ≤ n) :
    FliStores env ref ⟨.string, isVar, n, []⟩ (.bytes b) (.chars (b ++ List.replicate (n - b.length) 0)) (latin1 b) ∧
    FliReads ⟨.string, isVar, n, []⟩ (.chars (b ++ List.replicate (n - b.length) 0)) (.bytes b) := by
  refine ⟨⟨.str b, puts_of_datum h ref _ _ _ (by simp [fliLeaf, FObj.numElems, leafDatum]; omega), ?_⟩, ?_⟩
  · intro buf a _
    simp only [fliSet, fliStrSet, FObj.numElems, strncpy_eq h0 hl, cString, takeWhile_nz h0]
    exact fliAct_ok ⟨.string, isVar, n, []⟩ a _ _
  · simp only [FliReads, fliLeaf, FObj.numElems, leafGet, fliReading]
    have h1 : (b ++ List.replicate (n - b.length) 0).takeWhile (· ≠ 0) = b := takeWhile_pad h0 _
    have : strncpy (b ++ List.replicate (n - b.length) 0) n = b ++ List.replicate (n - b.length) 0 := by
      simp only [strncpy, h1, List.take_of_length_le hl]
    rw [this, cString, h1]

example : vhpiSet ⟨.str, 4⟩ [] .deposit (.str [72, 105]) = some (.str [72, 105, 0, 0], .depositPropagate) := by decide +kernel

/-! ## C122: what becomes of an accepted assignment -/

theorem larray_bin_length {n : Nat} {v : PyVal} {s : PyStr} (h : leafDatum (.larray n) v = .ok (.bin s)) : s.length = n := by
  cases v <;> simp only [leafDatum, larrayInt, larrayStr] at h <;> grind

/-- **C122.** VHPI: an assignment is refused, or the simulator is called with the mode that belongs to the action; only
for integers of 64 bits it is not called. -/
theorem C122_vhpi (env : Env) (h : Plain env) (ref : Ref) (o : VObj) (isInteger : Bool) (hch : o.fmt = .char → isInteger = true)
    (v : PyVal) :
    (∃ e, Rejects env ⟨ref, .leaf (vhpiLeaf o isInteger)⟩ v e) ∨
    ∃ d, Puts env ⟨ref, .leaf (vhpiLeaf o isInteger)⟩ v d ∧
      ((o.fmt = .longInt ∧ ∀ buf a, vhpiSet o buf a d = none) ∨
        (o.fmt ≠ .longInt ∧ ∀ buf a, ∃ x, vhpiSet o buf a d = some (x, putMode a))) := by
  cases hd : leafDatum (vhpiLeaf o isInteger) v with
  | error e => exact .inl ⟨e, rejects_of_error ref _ v e hd⟩
  | ok d =>
    refine .inr ⟨d, puts_of_datum h ref _ v d hd, ?_⟩
    obtain ⟨fmt, size⟩ := o
    have num : ∀ n s w, n ≤ 32 → (leafDatum (.integer n s) v = .ok w ∨ leafDatum (.enum n s) v = .ok w) →
        ∃ i, w = .int i ∧ v = .int i ∧ geMin n s i = true ∧ leMax n s i = true := by
      intro n s w hn hw
      cases v <;> simp only [leafDatum, integerInt, enumInt, hn, if_true, reduceCtorEq, or_self] at hw
      rename_i i
      split at hw
      · exact absurd hw (by simp)
      · rename_i hr
        simp only [Bool.not_eq_true', Bool.not_eq_false, Bool.and_eq_true] at hr
        rw [Except.ok.injEq] at hw
        subst hw
        exact ⟨i, rfl, rfl, hr⟩
    cases fmt
    case longInt =>
      refine .inl ⟨rfl, fun buf a => ?_⟩
      cases isInteger <;> cases v <;>
        simp only [vhpiLeaf, VObj.numElems, leafDatum, integerInt, enumInt, reduceCtorEq, if_true, if_false, Bool.false_eq_true,
          show ¬ (64 ≤ 32) by omega] at hd <;>
        (split at hd <;> cases hd <;> rfl)
    case logic =>
      refine .inr ⟨by simp, fun buf a => ?_⟩
      cases hm : meantScalar v with
      | none => obtain ⟨e, he⟩ := scalar_reject v hm; change leafDatum .logic v = _ at hd; rw [he] at hd; cases hd
      | some x =>
        change leafDatum .logic v = _ at hd
        rw [scalar_datum v x hm] at hd; cases hd
        exact ⟨_, by simp only [vhpiSet, vhpiSetBin, Option.map_some, putMode_eq]; rfl⟩
    case logicVec =>
      refine .inr ⟨by simp, fun buf a => ?_⟩
      change leafDatum (.larray size) v = _ at hd
      cases d with
      | int w => exact ⟨_, by simp only [vhpiSet, vhpiSetInt, Option.map_some, putMode_eq]; rfl⟩
      | bin s => exact ⟨_, by simp only [vhpiSet, vhpiSetBin, VObj.numElems, larray_bin_length hd, ne_eq, not_true, if_false,
          Option.map_some, putMode_eq]; rfl⟩
      | _ => cases v <;> simp only [leafDatum, larrayInt, larrayStr] at hd <;> grind
    case real =>
      refine .inr ⟨by simp, fun buf a => ?_⟩
      change leafDatum .real v = _ at hd
      cases v <;> simp only [leafDatum, Except.ok.injEq, reduceCtorEq] at hd <;> subst hd <;>
        exact ⟨_, by simp only [vhpiSet, vhpiSetReal, Option.map_some, putMode_eq]; rfl⟩
    case str =>
      refine .inr ⟨by simp, fun buf a => ?_⟩
      change leafDatum (.fixedString size) v = _ at hd
      have : ∃ b, d = .str b := by
        cases v <;> simp only [leafDatum] at hd <;> grind
      obtain ⟨b, rfl⟩ := this
      exact ⟨_, by simp only [vhpiSet, vhpiSetStr, Option.map_some, putMode_eq]; rfl⟩
    case char =>
      refine .inr ⟨by simp, fun buf a => ?_⟩
      have hi := hch rfl
      subst hi
      obtain ⟨i, rfl, rfl, h1, h2⟩ := num 8 .signed d (by omega) (.inl hd)
      simp only [geMin, leMax, geSignedMin_iff 8 (by omega), leSignedMax_iff 8 (by omega)] at h1 h2
      have h3 : ¬ (i > 127 ∨ i < -128) := by omega
      exact ⟨_, by simp only [vhpiSet, vhpiSetInt, toI32_id i (by unfold is32; omega), h3, if_false, Option.map_some, putMode_eq]; rfl⟩
    all_goals
      refine .inr ⟨by simp, fun buf a => ?_⟩
      have : ∃ i, d = .int i := by
        cases isInteger
        · obtain ⟨i, h1, _⟩ := num _ _ d (by simp [VObj.numElems]) (.inr hd); exact ⟨i, h1⟩
        · obtain ⟨i, h1, _⟩ := num _ _ d (by simp [VObj.numElems]) (.inl hd); exact ⟨i, h1⟩
      obtain ⟨i, rfl⟩ := this
      exact ⟨_, by simp only [vhpiSet, vhpiSetInt, Option.map_some, putMode_eq]; rfl⟩

/-- **C122.** FLI: the same; not called are the simulator for variables that are forced or released, real numbers that
are forced, and -1 for an enumeration. -/
theorem C122_fli (env : Env) (h : Plain env) (ref : Ref) (o : FObj) (hl : o.lits ≠ []) (v : PyVal) :
    (∃ e, Rejects env ⟨ref, .leaf (fliLeaf o)⟩ v e) ∨
    ∃ d, Puts env ⟨ref, .leaf (fliLeaf o)⟩ v d ∧
      ∀ buf a, fliSet o buf a d = none ↔
        (o.isVar = true ∧ (a = .force ∨ a = .release)) ∨ (o.kind = .real ∧ a = .force) ∨ (o.kind = .enum ∧ v = .int (-1)) := by
  cases hd : leafDatum (fliLeaf o) v with
  | error e => exact .inl ⟨e, rejects_of_error ref _ v e hd⟩
  | ok d =>
    refine .inr ⟨d, puts_of_datum h ref _ v d hd, ?_⟩
    intro buf a
    have act : ∀ x t, fliAct o a x t = none ↔ (o.isVar = true ∧ (a = .force ∨ a = .release)) := by
      intro x t
      cases hv : o.isVar <;> cases a <;> simp [fliAct, hv]
    cases hk : o.kind with
    | enum =>
      simp only [fliLeaf, hk, FObj.numElems, fliSigned, reduceCtorEq, if_false] at hd
      cases v <;> simp only [leafDatum, enumInt, reduceCtorEq] at hd
      rename_i i
      split at hd
      · cases hd
      · rename_i hr
        simp only [show (1 : Nat) ≤ 32 by omega, if_true, Except.ok.injEq] at hd
        subst hd
        have hf : fits 1 .unknown i := by
          rw [← inRange_iff 1 (by omega)]
          simpa using hr
        simp only [fits] at hf
        have ht := toI32_id i (by unfold is32; omega)
        have hlen : 0 < o.lits.length := List.length_pos_iff.2 hl
        simp only [fliSet, hk, ht, fliEnumSetInt, reduceCtorEq, false_and, false_or, true_and, PyVal.int.injEq]
        split
        · have : i = -1 := by omega
          simp [this]
        · have : ¬ i = -1 := by omega
          rw [act]; simp [this]
    | logic =>
      simp only [fliLeaf, hk] at hd
      cases hm : meantScalar v with
      | none => obtain ⟨e, he⟩ := scalar_reject v hm; rw [he] at hd; cases hd
      | some x =>
        rw [scalar_datum v x hm] at hd; cases hd
        simp only [fliSet, hk, fliLogicSetBin, if_true, List.length_singleton, ne_eq, not_true, if_false, act, reduceCtorEq, false_and, or_false]
    | logicArr =>
      simp only [fliLeaf, hk, FObj.numElems] at hd
      cases d with
      | int w => simp only [fliSet, hk, fliLogicSetInt, if_false, act, reduceCtorEq, false_and, or_false]
      | bin s =>
        simp only [fliSet, hk, fliLogicSetBin, FObj.numElems, larray_bin_length hd, if_false, ne_eq, not_true, act, reduceCtorEq, false_and, or_false]
      | _ => cases v <;> simp only [leafDatum, larrayInt, larrayStr] at hd <;> grind
    | int =>
      simp only [fliLeaf, hk, FObj.numElems, fliSigned, if_true] at hd
      cases v <;> simp only [leafDatum, integerInt, reduceCtorEq] at hd
      split at hd
      · cases hd
      · simp only [show (32 : Nat) ≤ 32 by omega, if_true, Except.ok.injEq] at hd
        subst hd
        simp only [fliSet, hk, fliIntSetInt, act, reduceCtorEq, false_and, or_false]
    | real =>
      simp only [fliLeaf, hk] at hd
      cases v <;> simp only [leafDatum, Except.ok.injEq, reduceCtorEq] at hd <;> subst hd <;>
        simp only [fliSet, hk, fliRealSet, reduceCtorEq, false_and, or_false, true_and] <;>
        (split <;> rename_i ha <;> simp [ha, act])
    | string =>
      simp only [fliLeaf, hk, FObj.numElems] at hd
      have : ∃ b, d = .str b := by
        cases v <;> simp only [leafDatum] at hd <;> grind
      obtain ⟨b, rfl⟩ := this
      simp only [fliSet, hk, fliStrSet, act, reduceCtorEq, false_and, or_false]

/-- **C122.** VPI: the simulator is always called, with the flag that belongs to the action; but string variables of two
simulators are written at once. A release hands over the current value. -/
theorem C122_vpi (c : PCfg) (cur : PVal → PVal) (a : SetAct) (d : Datum) :
    (vpiSet c cur a d).2 = (if a = .deposit ∧ c.questaOrXcelium = true ∧ c.stringVar = true then .noDelay else putFlag a) ∧
    (a = .release → ∃ p, (vpiSet c cur a d).1 = cur p) := by
  refine ⟨?_, ?_⟩
  · cases a <;> simp [vpiSet, putFlag] <;> split <;> simp_all
  · rintro rfl; exact ⟨_, rfl⟩

end Verif
