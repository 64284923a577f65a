import Verif.Lemmas.HandleValue
import Verif.Props.Handle
/-!
# C48, C49: what an assigned value puts on the signals
-/
namespace Verif
open Hdl Spec

/-- The value an argument carries. -/
def carried : Arg → Option (PyVal × SetAct)
  | .plain v => some (v, .deposit)
  | .deposit v => some (v, .deposit)
  | .force v => some (v, .force)
  | .immediate v => some (v, .noDelay)
  | _ => none

/-- Assigning the value `v` to the scalar object `o` puts exactly the datum `d` on its signal: the
assignment succeeds; with a direct action or in the read-write phase `d` is driven by that action and
nothing else is; otherwise nothing is driven until the next read-write phase, which drives `d` after
the signals written before. -/
def Puts (env : Env) (o : Obj) (v : PyVal) (d : Datum) : Prop :=
  ∀ (sim : Sim) (s : HS) (arg : Arg) (act : SetAct), carried arg = some (v, act) →
    s.phase ≠ .readOnly → env.isConst o.ref = false →
    (valueSet env sim o arg s).1 = .ok () ∧
    ((act ≠ .deposit ∨ s.phase = .readWrite) →
      (valueSet env sim o arg s).2 = { s with driven := s.driven ++ [⟨o.ref, act, d⟩] }) ∧
    (act = .deposit → s.phase = .other →
      (valueSet env sim o arg s).2.driven = s.driven ∧
      ∃ earlier, (∀ c ∈ earlier, c ∈ s.pend ∧ c.ref ≠ o.ref) ∧
        (react env .readWrite (valueSet env sim o arg s).2).2.driven =
          s.driven ++ earlier ++ [⟨o.ref, .deposit, d⟩])

/-- Assigning `v` to `o` raises `e` and has no effect at all. -/
def Rejects (env : Env) (o : Obj) (v : PyVal) (e : PyErr) : Prop :=
  ∀ (sim : Sim) (s : HS) (arg : Arg) (act : SetAct), carried arg = some (v, act) →
    s.phase ≠ .readOnly → env.isConst o.ref = false → valueSet env sim o arg s = (.error e, s)

theorem puts_of_datum {env : Env} (h : Plain env) (ref : Ref) (l : Leaf) (v : PyVal) (d : Datum)
    (hd : leafDatum l v = .ok d) : Puts env ⟨ref, .leaf l⟩ v d := by
  intro sim s arg act ha hs hc
  have e : valueSet env sim ⟨ref, .leaf l⟩ arg s = scheduleWrite env ⟨ref, act, d⟩ s := by
    cases arg <;> simp only [carried, Option.some.injEq, Prod.mk.injEq, reduceCtorEq] at ha
    all_goals
      obtain ⟨rfl, rfl⟩ := ha
      simp [valueSet, hs, hc, dispatch, setValue, hd]
  rw [e]
  refine ⟨scheduleWrite_ok h _ _, ?_, ?_⟩
  · intro ho
    unfold scheduleWrite
    simp only [h.defers, write_plain h]
    by_cases hp : s.phase = .readWrite
    · simp [hp]
    · simp [hp, ho.resolve_right hp]
  · rintro rfl hp
    have e2 : ∃ b, (scheduleWrite env ⟨ref, .deposit, d⟩ s).2 =
        { s with pend := dictPut ⟨ref, .deposit, d⟩ s.pend, cb := b } := by
      simp only [scheduleWrite, h.defers, h.primes, hp]
      cases s.cb <;> exact ⟨true, by simp⟩
    obtain ⟨b, e2⟩ := e2
    rw [e2]
    refine ⟨rfl, s.pend.filter (fun x => x.ref ≠ ref), ?_, ?_⟩
    · intro c hc
      obtain ⟨h1, h2⟩ := List.mem_filter.1 hc
      exact ⟨h1, by simpa using h2⟩
    · rw [react_rw h]; simp [dictPut]

theorem rejects_of_error {env : Env} (ref : Ref) (l : Leaf) (v : PyVal) (e : PyErr)
    (hd : leafDatum l v = .error e) : Rejects env ⟨ref, .leaf l⟩ v e := by
  intro sim s arg act ha hs hc
  cases arg <;> simp only [carried, Option.some.injEq, Prod.mk.injEq, reduceCtorEq] at ha
  all_goals
    obtain ⟨rfl, rfl⟩ := ha
    simp [valueSet, hs, hc, dispatch, setValue, hd]

/-! ## C48 -/

/-- An int assigned to an `n`-bit logic array object is accepted exactly when it has an `n`-bit
unsigned or two's complement representation, and then its `n` bits (the value modulo `2 ^ n`) are
what is driven; otherwise ValueError and no effect. -/
theorem C48_logic_array_int (env : Env) (h : Plain env) (ref : Ref) (n : Nat) (hn : 0 < n) (v : Int) :
    (fitsArray n v → ∃ d, Puts env ⟨ref, .leaf (.larray n)⟩ (.int v) d ∧
      bitsOf n d = some (bitsOfInt n v)) ∧
    (¬ fitsArray n v → Rejects env ⟨ref, .leaf (.larray n)⟩ (.int v) .valueError) := by
  constructor
  · intro hf
    obtain ⟨d, hd, hb⟩ := larrayInt_ok n hn v hf
    exact ⟨d, puts_of_datum h ref _ _ d (by simpa [leafDatum] using hd), hb⟩
  · intro hf
    exact rejects_of_error ref _ _ _ (by simpa [leafDatum] using larrayInt_error n hn v hf)

/-- -128 and 255 are the ends for 8 bits; a 40-bit -1 drives forty ones. -/
example : leafDatum (.larray 8) (.int (-128)) = .ok (.int (-128)) ∧
    leafDatum (.larray 8) (.int (-129)) = .error .valueError ∧
    leafDatum (.larray 8) (.int 255) = .ok (.int 255) ∧
    leafDatum (.larray 8) (.int 256) = .error .valueError ∧
    leafDatum (.larray 40) (.int (-1)) = .ok (.bin (List.replicate 40 '1')) ∧
    bitsOf 8 (.int (-128)) = some [.F1, .F0, .F0, .F0, .F0, .F0, .F0, .F0] := by decide +kernel

/-- An int assigned to an integer object is accepted exactly when it fits the object's width and
signedness, and then exactly its bits are driven; otherwise ValueError and no effect. -/
theorem C48_integer_int (env : Env) (h : Plain env) (ref : Ref) (n : Nat) (hn : 0 < n) (s : Sgn)
    (v : Int) :
    (fits n s v → ∃ d, Puts env ⟨ref, .leaf (.integer n s)⟩ (.int v) d ∧
      bitsOf n d = some (bitsOfInt n v)) ∧
    (¬ fits n s v → Rejects env ⟨ref, .leaf (.integer n s)⟩ (.int v) .valueError) := by
  constructor
  · intro hf
    obtain ⟨d, hd, hb⟩ := integerInt_ok n hn s v hf
    exact ⟨d, puts_of_datum h ref _ _ d (by simpa [leafDatum] using hd), hb⟩
  · intro hf
    exact rejects_of_error ref _ _ _ (by simpa [leafDatum] using (integerInt_error n hn s v hf).1)

example : leafDatum (.integer 64 .signed) (.int (-(2 ^ 63))) = .ok (.bin ('1' :: List.replicate 63 '0')) ∧
    leafDatum (.integer 64 .signed) (.int (2 ^ 63)) = .error .valueError ∧
    leafDatum (.integer 8 .unsigned) (.int (-1)) = .error .valueError := by decide +kernel

/-- The same for enum objects. -/
def C48_enum_int_full : Prop :=
  ∀ (env : Env) (ref : Ref) (n : Nat) (s : Sgn) (v : Int), Plain env → 0 < n → fits n s v →
    ∃ d, Puts env ⟨ref, .leaf (.enum n s)⟩ (.int v) d ∧ bitsOf n d = some (bitsOfInt n v)

/-- A negative value of a signed enum wider than 32 bits is handed to the simulator as a minus sign
followed by digits, which is not the value's bits. -/
theorem C48_enum_int_counterexample : ¬ C48_enum_int_full := by
  intro H
  obtain ⟨d, hp, hb⟩ := H HandleEx.env ⟨0, []⟩ 33 .signed (-1) HandleEx.plain (by omega)
    (by simp only [fits]; omega)
  have h1 := (hp HandleEx.sim .init (.immediate (.int (-1))) .noDelay rfl (by simp [HS.init]) rfl).2.1
    (Or.inl (by simp))
  have h2 : (valueSet HandleEx.env HandleEx.sim ⟨⟨0, []⟩, .leaf (.enum 33 .signed)⟩
      (.immediate (.int (-1))) .init).2.driven =
      [⟨⟨0, []⟩, .noDelay, .bin ('-' :: (List.replicate 31 '0' ++ ['1']))⟩] := by decide +kernel
  rw [h1] at h2
  have h3 : d = .bin ('-' :: (List.replicate 31 '0' ++ ['1'])) := by
    simpa [HS.init] using h2
  rw [h3] at hb
  revert hb
  decide +kernel

/-- Enum objects of at most 32 bits, and non-negative values. Missing: negative values of signed
enums wider than 32 bits. -/
theorem C48_enum_int_partial (env : Env) (h : Plain env) (ref : Ref) (n : Nat) (hn : 0 < n) (s : Sgn)
    (v : Int) (hv : n ≤ 32 ∨ 0 ≤ v) :
    (fits n s v → ∃ d, Puts env ⟨ref, .leaf (.enum n s)⟩ (.int v) d ∧
      bitsOf n d = some (bitsOfInt n v)) ∧
    (¬ fits n s v → Rejects env ⟨ref, .leaf (.enum n s)⟩ (.int v) .valueError) := by
  constructor
  · intro hf
    obtain ⟨d, hd, hb⟩ := enumInt_ok n hn s v hf hv
    exact ⟨d, puts_of_datum h ref _ _ d (by simpa [leafDatum] using hd), hb⟩
  · intro hf
    exact rejects_of_error ref _ _ _ (by simpa [leafDatum] using (integerInt_error n hn s v hf).2)

example : leafDatum (.enum 3 .unsigned) (.int 7) = .ok (.int 7) ∧
    leafDatum (.enum 3 .unsigned) (.int 8) = .error .valueError := by decide +kernel

/-- A scalar logic object takes the ints 0 and 1 only. -/
theorem C48_logic_int (env : Env) (h : Plain env) (ref : Ref) (v : Int) :
    ((v = 0 ∨ v = 1) → Puts env ⟨ref, .leaf .logic⟩ (.int v) (.bin [if v = 0 then '0' else '1'])) ∧
    (¬ (v = 0 ∨ v = 1) → Rejects env ⟨ref, .leaf .logic⟩ (.int v) .valueError) := by
  constructor
  · rintro (rfl | rfl) <;> exact puts_of_datum h ref _ _ _ rfl
  · intro hv
    apply rejects_of_error
    have : Logic.ofLiteralInt v = none := by
      simp only [not_or] at hv; simp [Logic.ofLiteralInt, hv.1, hv.2]
    simp [leafDatum, Logic.new, this, bind, Except.bind]

/-- Reading an integer or enum object after its signal took the bits of `v` gives `v` back: whether
the simulator reports the 32-bit value sign-extended or not (`rd.long` is any number congruent to `v`
within the signed and unsigned range of `n` bits), and through the bit string for wider objects. -/
theorem C48_read_back (n : Nat) (hn : 0 < n) (s : Sgn) (hs : s ≠ .unknown) (v : Int)
    (hv : fits n s v) (rd : Reading)
    (hlong : n ≤ 32 → rd.long % 2 ^ n = v % 2 ^ n ∧ -(2 ^ (n - 1)) ≤ rd.long ∧ rd.long < 2 ^ n)
    (hbin : 32 < n → rd.bin = bitsOfInt n v) :
    leafGet (.integer n s) rd = .ok (.int v) ∧ leafGet (.enum n s) rd = .ok (.int v) := by
  simp [leafGet, intGet_back n hn s hs v hv rd hlong hbin, bind, Except.bind]

example : leafGet (.integer 8 .signed) ⟨[], 200, 0, []⟩ = .ok (.int (-56)) ∧
    leafGet (.integer 8 .signed) ⟨[], -56, 0, []⟩ = .ok (.int (-56)) ∧
    leafGet (.integer 32 .unsigned) ⟨[], -1, 0, []⟩ = .ok (.int (2 ^ 32 - 1)) := by
  refine ⟨?_, ?_, ?_⟩ <;> rfl

/-! ## C75 -/

/-- A string assigned to an `n`-bit logic array object is accepted exactly when it stands for `n`
elements, which are then what is driven; otherwise ValueError and no effect. -/
theorem C75_logic_array_str (env : Env) (h : Plain env) (ref : Ref) (n : Nat) (s : PyStr) :
    (∀ l, elementsOf s = some l → l.length = n →
      ∃ d, Puts env ⟨ref, .leaf (.larray n)⟩ (.str s) d ∧ bitsOf n d = some l) ∧
    (∀ l, elementsOf s = some l → l.length ≠ n →
      Rejects env ⟨ref, .leaf (.larray n)⟩ (.str s) .valueError) ∧
    (elementsOf s = none → Rejects env ⟨ref, .leaf (.larray n)⟩ (.str s) .valueError) := by
  have hu := elements_upper (s.filter (· ≠ '_'))
  have hlit : ∀ l, (chrs l).any (fun c => !decide (c ∈ LA.strLiterals)) = false := by
    intro l
    have := chrs_literals l
    rw [List.any_eq_false]
    rw [List.all_eq_true] at this
    intro x hx
    simpa using this x hx
  refine ⟨?_, ?_, ?_⟩
  · intro l hl hn
    have e : LA.normStr s = chrs l := hu.1 l hl
    refine ⟨.bin (chrs l), puts_of_datum h ref _ _ _ ?_, ?_⟩
    · simp only [leafDatum, e, hlit]; simp [larrayStr, hn]
    · simp [bitsOf, mapM_chrs, hn]
  · intro l hl hn
    have e : LA.normStr s = chrs l := hu.1 l hl
    apply rejects_of_error
    simp only [leafDatum, e, hlit]; simp [larrayStr, hn]
  · intro hl
    apply rejects_of_error
    have : (LA.normStr s).any (fun c => !decide (c ∈ LA.strLiterals)) = true := hu.2 hl
    simp only [leafDatum, this, if_true]

example : leafDatum (.larray 4) (.str "1x_Zh".toList) = .ok (.bin "1XZH".toList) ∧
    leafDatum (.larray 4) (.str "10".toList) = .error .valueError ∧
    leafDatum (.larray 4) (.str "10a0".toList) = .error .valueError := by decide +kernel

/-- A LogicArray is accepted exactly when it has `n` elements, which are then what is driven. -/
theorem C75_logic_array_array (env : Env) (h : Plain env) (ref : Ref) (n : Nat) (l : List Logic) :
    (l.length = n → ∃ d, Puts env ⟨ref, .leaf (.larray n)⟩ (.larr l) d ∧ bitsOf n d = some l) ∧
    (l.length ≠ n → Rejects env ⟨ref, .leaf (.larray n)⟩ (.larr l) .valueError) := by
  constructor
  · intro hn
    refine ⟨.bin (chrs l), puts_of_datum h ref _ _ _ ?_, ?_⟩
    · simp [leafDatum, larrayStr, hn, chrs]
    · simp [bitsOf, mapM_chrs, hn]
  · intro hn
    apply rejects_of_error
    simp [leafDatum, larrayStr, hn]

/-- A scalar logic object takes any Logic, any one-character literal and any LogicArray of length 1,
and drives that element; other strings and lengths are refused with ValueError. -/
theorem C75_logic (env : Env) (h : Plain env) (ref : Ref) :
    (∀ o : Logic.Obj, Puts env ⟨ref, .leaf .logic⟩ (.logic o) (.bin [o.v.chr])) ∧
    (∀ s : PyStr, match Logic.ofLiteralStr s with
      | some x => Puts env ⟨ref, .leaf .logic⟩ (.str s) (.bin [x.chr])
      | none => Rejects env ⟨ref, .leaf .logic⟩ (.str s) .valueError) ∧
    (∀ l : List Logic, match l with
      | [x] => Puts env ⟨ref, .leaf .logic⟩ (.larr l) (.bin [x.chr])
      | _ => Rejects env ⟨ref, .leaf .logic⟩ (.larr l) .valueError) := by
  refine ⟨fun o => puts_of_datum h ref _ _ _ rfl, ?_, ?_⟩
  · intro s
    cases hs : Logic.ofLiteralStr s with
    | some x =>
      exact puts_of_datum h ref _ _ _ (by simp [leafDatum, Logic.new, hs, Logic.Cls.allows, bind, Except.bind])
    | none =>
      exact rejects_of_error ref _ _ _ (by simp [leafDatum, Logic.new, hs, bind, Except.bind])
  · intro l
    match l with
    | [] => exact rejects_of_error ref _ _ _ (by simp [leafDatum])
    | [x] => exact puts_of_datum h ref _ _ _ (by simp [leafDatum])
    | x :: y :: t => exact rejects_of_error ref _ _ _ (by simp [leafDatum])

/-- Writing back to a logic array object the value read from it (`Freeze`, `Release`) drives the
elements it has. -/
theorem C75_write_back (env : Env) (h : Plain env) (ref : Ref) (n : Nat) (rd : Reading)
    (hn : rd.bin.length = n) :
    ∃ v d, leafGet (.larray n) rd = .ok v ∧ Puts env ⟨ref, .leaf (.larray n)⟩ v d ∧
      bitsOf n d = some rd.bin := by
  obtain ⟨d, hd, hb⟩ := (C75_logic_array_array env h ref n rd.bin).1 hn
  exact ⟨_, d, rfl, hd, hb⟩

/-! ## C49 -/

/-- An array object refuses a value of another length (or without a length), with no effect. -/
theorem C49_length_mismatch (env : Env) (ref : Ref) (l : Int) (d : Dir) (r : Int) (e : Ty) (v : PyVal)
    (vs : List PyVal) (hv : v.elems = some vs) (hlen : vs.length ≠ (rangeSeq l d r).length) :
    Rejects env ⟨ref, .arr l d r e⟩ v .valueError := by
  intro sim s arg act ha hs hc
  rw [← Range.items_mk3, range_len] at hlen
  cases arg <;> simp only [carried, Option.some.injEq, Prod.mk.injEq, reduceCtorEq] at ha
  all_goals
    obtain ⟨rfl, rfl⟩ := ha
    simp [valueSet, hs, hc, dispatch, setValue, hv, hlen]

/-- Without `len`: TypeError. -/
theorem C49_no_length (env : Env) (ref : Ref) (l : Int) (d : Dir) (r : Int) (e : Ty) (v : PyVal)
    (hv : v.elems = none) : Rejects env ⟨ref, .arr l d r e⟩ v .typeError := by
  intro sim s arg act ha hs hc
  cases arg <;> simp only [carried, Option.some.injEq, Prod.mk.injEq, reduceCtorEq] at ha
  all_goals
    obtain ⟨rfl, rfl⟩ := ha
    simp [valueSet, hs, hc, dispatch, setValue, hv]

/-- Assigning a (nested) list to an array object, of any dimensions and directions: if the value has
the lengths of the object at every level, the simulator finds the elements and every element is a
value its scalar accepts, the assignment succeeds and the signal at the `k`-th index of the range
(at each level) is written with the `k`-th element, once each, left to right: `calls` are these writes
and they are driven at once by a direct action or in the read-write phase, and by the next read-write
phase otherwise. -/
theorem C49_assign (env : Env) (h : Plain env) (o : Obj) (v : PyVal) (act : SetAct)
    (hsh : Shaped o.ty v) (hpr : Present env o.ty o.ref) (hc : env.isConst o.ref = false)
    (hw : ∀ p ∈ positions o.ty, ∀ w, valueAt v p = some w → ∃ d, leafDatum (scalar o.ty) w = .ok d) :
    ∃ calls : List Call, (positions o.ty).map (wantedAt o.ty o.ref v act) = calls.map some ∧
      (calls.map Call.ref).Nodup ∧
      ∀ (sim : Sim) (s : HS) (arg : Arg), carried arg = some (v, act) → s.phase ≠ .readOnly →
        (valueSet env sim o arg s).1 = .ok () ∧
        ((act ≠ .deposit ∨ s.phase = .readWrite) →
          (valueSet env sim o arg s).2 = { s with driven := s.driven ++ calls }) ∧
        (act = .deposit → s.phase = .other → s.pend = [] →
          (valueSet env sim o arg s).2.driven = s.driven ∧
          (react env .readWrite (valueSet env sim o arg s).2).2.driven = s.driven ++ calls) := by
  have hok := requested_succeeds env o.ty o.ref v act hsh hpr hw
  obtain ⟨-, hcalls⟩ := requested_ok env o.ty o.ref v act hok
  have hnd : (((requested env o.ty o.ref v act).1).map Call.ref).Nodup := by
    have := handles_nodup o.ty o.ref
    have e : (positions o.ty).map (handleAt o.ref o.ty) = (requested env o.ty o.ref v act).1.map Call.ref := by
      have h1 : ((positions o.ty).map (wantedAt o.ty o.ref v act)).map (Option.map Call.ref) =
          ((positions o.ty).map (handleAt o.ref o.ty)).map some := by
        rw [List.map_map, List.map_map]
        apply List.map_congr_left
        intro p hp
        have hm : wantedAt o.ty o.ref v act p ∈ (positions o.ty).map (wantedAt o.ty o.ref v act) :=
          List.mem_map_of_mem hp
        rw [hcalls] at hm
        obtain ⟨c, -, hc⟩ := List.mem_map.1 hm
        simp only [Function.comp_def, ← hc, Option.map_some, Option.some.injEq]
        have := hc.symm
        simp only [wantedAt, Option.bind_eq_bind, Option.bind_eq_some_iff] at this
        obtain ⟨w, -, d, -, hd⟩ := this
        rw [← Option.some.inj hd]
      rw [hcalls, List.map_map] at h1
      have h2 : ∀ (a b : List Ref), a.map some = b.map some → a = b := by
        intro a b hab
        exact (List.map_inj_right (fun _ _ h => Option.some.inj h)).1 hab
      apply Eq.symm
      apply h2
      rw [← h1, List.map_map]
      rfl
    rwa [e] at this
  refine ⟨_, hcalls, hnd, ?_⟩
  intro sim s arg ha hs
  have hb : valueSet env sim o arg s = setValue env o.ty o.ref v act s := by
    cases arg <;> simp only [carried, Option.some.injEq, Prod.mk.injEq, reduceCtorEq] at ha
    all_goals
      obtain ⟨rfl, rfl⟩ := ha
      simp [valueSet, hs, hc, dispatch]
  have hspec := setValue_spec h o.ty o.ref v act s
  have hact := requested_act env o.ty o.ref v act
  rw [hb]
  refine ⟨?_, ?_, ?_⟩
  · have := hspec.2
    rw [hok] at this
    cases hr : (setValue env o.ty o.ref v act s).1 with
    | ok u => rfl
    | error e => rw [hr] at this; simp [Except.succeeds] at this
  · rintro (hd | hrw)
    · rw [hspec.1]; exact schedAll_direct h _ s fun c hc => by rw [hact c hc]; exact hd
    · rw [hspec.1]; exact schedAll_rw h _ s hrw
  · rintro rfl hp hpe
    rw [hspec.1]
    have h1 := (schedAll_deposits h _ s (by simp [hp]) hact).2
    refine ⟨h1, ?_⟩
    rw [react_rw h]
    simp only [h1]
    congr 1
    have hpend : ∀ (cs : List Call) (s : HS), s.phase = .other → (∀ c ∈ cs, c.act = .deposit) →
        ((s.pend ++ cs).map Call.ref).Nodup → (schedAll env cs s).pend = s.pend ++ cs := by
      intro cs
      induction cs with
      | nil => intro s _ _ _; simp [schedAll]
      | cons c cs ih =>
        intro s hp hcs hn
        have e : (scheduleWrite env c s).2.pend = s.pend ++ [c] := by
          have hd : dictPut c s.pend = s.pend ++ [c] := by
            unfold dictPut
            congr 1
            rw [List.filter_eq_self]
            intro x hx
            simp only [ne_eq, decide_not, Bool.not_eq_eq_eq_not, Bool.not_true, decide_eq_false_iff_not]
            intro hxc
            rw [List.map_append, List.nodup_append] at hn
            exact hn.2.2 x.ref (List.mem_map_of_mem hx) c.ref (by simp) hxc
          simp only [scheduleWrite, h.defers, h.primes, hp, hcs c (by simp)]
          cases s.cb <;> simp [hd]
        have : schedAll env (c :: cs) s = schedAll env cs (scheduleWrite env c s).2 := rfl
        rw [this, ih _ (by rw [scheduleWrite_phase]; exact hp)
          (fun c h => hcs c (List.mem_cons_of_mem _ h)) (by rw [e]; simpa using hn), e]
        simp
    rw [hpend _ s hp hact (by rw [hpe]; simpa using hnd), hpe]
    rfl

/-- A 2-by-3 array with opposite directions: `arr[1:0][0:2]`. -/
def HandleEx.m : Obj := ⟨⟨5, []⟩, .arr 1 .downto 0 (.arr 0 .to 2 (.leaf (.larray 4)))⟩

example : (valueSet HandleEx.env HandleEx.sim HandleEx.m (.immediate
    (.list [.list [.int 1, .int 2, .int 3], .list [.int 4, .int 5, .int 6]])) .init).2.driven =
    [⟨⟨5, [1, 0]⟩, .noDelay, .int 1⟩, ⟨⟨5, [1, 1]⟩, .noDelay, .int 2⟩, ⟨⟨5, [1, 2]⟩, .noDelay, .int 3⟩,
     ⟨⟨5, [0, 0]⟩, .noDelay, .int 4⟩, ⟨⟨5, [0, 1]⟩, .noDelay, .int 5⟩, ⟨⟨5, [0, 2]⟩, .noDelay, .int 6⟩] := by
  decide +kernel

/-- A value that does not have the lengths of the object at some level is refused. -/
theorem C49_shape_needed (env : Env) (h : Plain env) (o : Obj) (v : PyVal) (hsh : ¬ Shaped o.ty v)
    (sim : Sim) (s : HS) (arg : Arg) (act : SetAct) (ha : carried arg = some (v, act))
    (hs : s.phase ≠ .readOnly) (hc : env.isConst o.ref = false) :
    ∃ e, (valueSet env sim o arg s).1 = .error e := by
  have hb : valueSet env sim o arg s = setValue env o.ty o.ref v act s := by
    cases arg <;> simp only [carried, Option.some.injEq, Prod.mk.injEq, reduceCtorEq] at ha
    all_goals
      obtain ⟨rfl, rfl⟩ := ha
      simp [valueSet, hs, hc, dispatch]
  rw [hb]
  have hspec := (setValue_spec h o.ty o.ref v act s).2
  cases hr : (setValue env o.ty o.ref v act s).1 with
  | error e => exact ⟨e, rfl⟩
  | ok u =>
    rw [hr] at hspec
    exact absurd (requested_ok env o.ty o.ref v act (by rw [← hspec]; rfl)).1 hsh

/-- "Raises" does not mean "has no effect" for nested arrays: -/
def C49_refused_without_effect_full : Prop :=
  ∀ (env : Env) (o : Obj) (v : PyVal) (sim : Sim) (s : HS), Plain env → s.phase = .other →
    ¬ Shaped o.ty v → (valueSet env sim o (.immediate v) s).2 = s

/-- rows before the first row of a wrong length are written. -/
theorem C49_refused_without_effect_counterexample : ¬ C49_refused_without_effect_full := by
  intro H
  have := H HandleEx.env HandleEx.m (.list [.list [.int 1, .int 2, .int 3], .list [.int 4]]) HandleEx.sim
    .init HandleEx.plain rfl (by
      rintro ⟨vs, hv, -, hw⟩
      simp only [PyVal.elems, Option.some.injEq] at hv
      subst hv
      obtain ⟨ws, hws, hl, -⟩ := hw (.list [.int 4]) (by simp)
      simp only [PyVal.elems, Option.some.injEq] at hws
      subst hws
      revert hl
      decide)
  have h2 := congrArg HS.driven this
  revert h2
  decide +kernel

/-- Reading an array object gives a value with the lengths of the object at every level, whose
element at the `k`-th position (at each level) is the value of the signal at the `k`-th index of the
range. -/
theorem C49_read (env : Env) (sim : Sim) (o : Obj) (v : PyVal)
    (h : getValue env sim o.ty o.ref = .ok v) :
    Shaped o.ty v ∧ ∀ p ∈ positions o.ty, ∃ w, valueAt v p = some w ∧
      leafGet (scalar o.ty) (sim (handleAt o.ref o.ty p)) = .ok w :=
  getValue_spec env sim o.ty o.ref v h

/-- Reading succeeds when the simulator finds the elements and each can be read. -/
theorem C49_read_succeeds (env : Env) (sim : Sim) (o : Obj) (hp : Present env o.ty o.ref)
    (hl : ∀ p ∈ positions o.ty, ∃ w,
      leafGet (scalar o.ty) (sim (handleAt o.ref o.ty p)) = .ok w) :
    ∃ v, getValue env sim o.ty o.ref = .ok v :=
  getValue_succeeds env sim o.ty o.ref hp hl

example : getValue HandleEx.env (fun r => ⟨[], r.idx.foldl (fun a i => 10 * a + i) 0, 0, []⟩)
    (.arr 1 .downto 0 (.arr 0 .to 1 (.leaf (.integer 32 .signed)))) ⟨5, []⟩ =
    .ok (.array (Range.mk3 1 .downto 0) [.array (Range.mk3 0 .to 1) [.int 10, .int 11],
      .array (Range.mk3 0 .to 1) [.int 0, .int 1]]) := by rfl

/-- Distinct positions of an array object are distinct signals. -/
theorem C49_signals_distinct (o : Obj) : ((positions o.ty).map (handleAt o.ref o.ty)).Nodup :=
  handles_nodup o.ty o.ref

end Verif
