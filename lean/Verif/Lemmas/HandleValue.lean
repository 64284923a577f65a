import Verif.Lemmas.Handle
import Verif.Props.LogicArray
/-!
# Lemmas: integers as signal values, elements of nested arrays
-/
namespace Verif.Hdl
open Verif Verif.Spec

theorem mapM_chrs (l : List Logic) : (chrs l).mapM Logic.ofLiteralChar = some l := by
  induction l with
  | nil => rfl
  | cons x xs ih =>
    simp only [chrs, List.map_cons, List.mapM_cons] at ih ⊢
    have : Logic.ofLiteralChar x.chr = some x := by cases x <;> rfl
    simp [this, ih]

theorem geSignedMin_iff (n : Nat) (hn : 0 < n) (v : Int) :
    geSignedMin n v = true ↔ -(2 ^ (n - 1)) ≤ v := by
  obtain ⟨m, rfl⟩ : ∃ m, n = m + 1 := ⟨n - 1, by omega⟩
  simp only [geSignedMin, decide_eq_true_eq, Nat.add_sub_cancel, Int.pow_succ]
  omega

theorem leSignedMax_iff (n : Nat) (hn : 0 < n) (v : Int) :
    leSignedMax n v = true ↔ v < 2 ^ (n - 1) := by
  obtain ⟨m, rfl⟩ : ∃ m, n = m + 1 := ⟨n - 1, by omega⟩
  simp only [leSignedMax, decide_eq_true_eq, Nat.add_sub_cancel, Int.pow_succ]
  omega

theorem leUnsignedMax_iff (n : Nat) (v : Int) : leUnsignedMax n v = true ↔ v < 2 ^ n := by
  simp only [leUnsignedMax, decide_eq_true_eq]; omega

theorem inRange_iff (n : Nat) (hn : 0 < n) (s : Sgn) (v : Int) :
    (geMin n s v && leMax n s v) = true ↔ fits n s v := by
  cases s <;> simp [geMin, leMax, fits, geSignedMin_iff n hn, leSignedMax_iff n hn,
    leUnsignedMax_iff]

theorem two_pow_pred (n : Nat) (hn : 0 < n) : (2 : Int) ^ n = 2 * 2 ^ (n - 1) := by
  obtain ⟨m, rfl⟩ : ∃ m, n = m + 1 := ⟨n - 1, by omega⟩
  simp only [Nat.add_sub_cancel, Int.pow_succ]; omega

theorem two_pow_pos (n : Nat) : (0 : Int) < 2 ^ n := Int.pow_pos (by omega)

/-- The wrapped value is `v` modulo `2 ^ n`. -/
theorem wrap_eq (n : Nat) (v : Int) (h1 : -(2 ^ n) ≤ v) (h2 : v < 2 ^ n) :
    (if v < 0 then v + 2 ^ n else v) = v % 2 ^ n := by
  have hp := two_pow_pos n
  split
  · rw [← Int.add_emod_right, Int.emod_eq_of_lt (by omega) (by omega)]
  · rw [Int.emod_eq_of_lt (by omega) h2]

theorem formatBin_mod (n : Nat) (hn : 0 < n) (v : Int) :
    pyFormatBin n (v % 2 ^ n) = chrs (bitsOfInt n v) := by
  have hp := two_pow_pos n
  have h0 := Int.emod_nonneg v (show (2 : Int) ^ n ≠ 0 by omega)
  have h1 := Int.emod_lt_of_pos v hp
  have e : v % 2 ^ n = ((v % 2 ^ n).toNat : Int) := by omega
  rw [e, pyFormatBin_nat n _ hn (by
    have : ((v % 2 ^ n).toNat : Int) < ((2 ^ n : Nat) : Int) := by rw [← e]; simpa using h1
    omega)]
  rfl

theorem bitsOf_formatBin (n : Nat) (hn : 0 < n) (v : Int) :
    bitsOf n (.bin (pyFormatBin n (v % 2 ^ n))) = some (bitsOfInt n v) := by
  rw [formatBin_mod n hn]
  have : (chrs (bitsOfInt n v)).length = n := by simp [chrs, bitsOfInt]
  simp only [bitsOf, this, if_true, mapM_chrs]

theorem formatBin_length (n : Nat) (hn : 0 < n) (v : Int) :
    (pyFormatBin n (v % 2 ^ n)).length = n := by
  rw [formatBin_mod n hn]; simp [chrs, bitsOfInt]

theorem bitsOf_int (n : Nat) (hn : n ≤ 32) (v : Int) :
    bitsOf n (.int v) = some (bitsOfInt n v) := by
  simp only [bitsOf, bitsOfInt]
  rw [Int.emod_emod_of_dvd]
  refine ⟨2 ^ (32 - n), ?_⟩
  rw [← Int.pow_add]; congr 1; omega

theorem pow_le (n : Nat) : (2 : Int) ^ (n - 1) ≤ 2 ^ n := by
  rcases Nat.eq_zero_or_pos n with rfl | h
  · simp
  · have := two_pow_pred n h; have := two_pow_pos (n - 1); omega

theorem larrayInt_ok (n : Nat) (hn : 0 < n) (v : Int) (h : fitsArray n v) :
    ∃ d, larrayInt n v = .ok d ∧ bitsOf n d = some (bitsOfInt n v) := by
  have hr : (geSignedMin n v && leUnsignedMax n v) = true := by
    rw [Bool.and_eq_true, geSignedMin_iff n hn, leUnsignedMax_iff]; exact h
  have := pow_le n
  unfold larrayInt
  simp only [hr, Bool.not_true, Bool.false_eq_true, if_false]
  by_cases hs : n ≤ 32
  · exact ⟨.int v, by simp [hs], bitsOf_int n hs v⟩
  · have hw := wrap_eq n v (by have := h.1; omega) h.2
    refine ⟨.bin (pyFormatBin n (v % 2 ^ n)), ?_, bitsOf_formatBin n hn v⟩
    simp only [hs, if_false, hw, formatBin_length n hn]
    simp

theorem larrayInt_error (n : Nat) (hn : 0 < n) (v : Int) (h : ¬ fitsArray n v) :
    larrayInt n v = .error .valueError := by
  have hr : (geSignedMin n v && leUnsignedMax n v) = false := by
    rw [Bool.eq_false_iff]
    intro hc
    rw [Bool.and_eq_true, geSignedMin_iff n hn, leUnsignedMax_iff] at hc; exact h hc
  simp [larrayInt, hr]

theorem fits_bounds (n : Nat) (s : Sgn) (v : Int) (h : fits n s v) : -(2 ^ n) ≤ v ∧ v < 2 ^ n := by
  have := pow_le n
  have := two_pow_pos n
  cases s <;> simp only [fits] at h <;> omega

theorem integerInt_ok (n : Nat) (hn : 0 < n) (s : Sgn) (v : Int) (h : fits n s v) :
    ∃ d, integerInt n s v = .ok d ∧ bitsOf n d = some (bitsOfInt n v) := by
  have hr := (inRange_iff n hn s v).2 h
  unfold integerInt
  simp only [hr, Bool.not_true, Bool.false_eq_true, if_false]
  by_cases hs : n ≤ 32
  · exact ⟨.int v, by simp [hs], bitsOf_int n hs v⟩
  · have hb := fits_bounds n s v h
    have hw := wrap_eq n v hb.1 hb.2
    exact ⟨_, by simp only [hs, if_false, hw], bitsOf_formatBin n hn v⟩

theorem integerInt_error (n : Nat) (hn : 0 < n) (s : Sgn) (v : Int) (h : ¬ fits n s v) :
    integerInt n s v = .error .valueError ∧ enumInt n s v = .error .valueError := by
  have hr : (geMin n s v && leMax n s v) = false := by
    rw [Bool.eq_false_iff]; intro hc; exact h ((inRange_iff n hn s v).1 hc)
  simp [integerInt, enumInt, hr]

theorem enumInt_ok (n : Nat) (hn : 0 < n) (s : Sgn) (v : Int) (h : fits n s v)
    (hv : n ≤ 32 ∨ 0 ≤ v) :
    ∃ d, enumInt n s v = .ok d ∧ bitsOf n d = some (bitsOfInt n v) := by
  have hr := (inRange_iff n hn s v).2 h
  unfold enumInt
  simp only [hr, Bool.not_true, Bool.false_eq_true, if_false]
  by_cases hs : n ≤ 32
  · exact ⟨.int v, by simp [hs], bitsOf_int n hs v⟩
  · have hv : 0 ≤ v := by omega
    have hb := fits_bounds n s v h
    have hw := wrap_eq n v hb.1 hb.2
    rw [if_neg (by omega)] at hw
    refine ⟨.bin (pyFormatBin n v), by simp only [hs, if_false], ?_⟩
    have := bitsOf_formatBin n hn v
    rwa [← hw] at this

theorem intBase2_bits (n : Nat) (hn : 0 < n) (v : Int) :
    pyIntBase2 ((bitsOfInt n v).map Logic.chr) = .ok (v % 2 ^ n) := by
  have hp := two_pow_pos n
  have h0 := Int.emod_nonneg v (show (2 : Int) ^ n ≠ 0 by omega)
  have h1 := Int.emod_lt_of_pos v hp
  have hb : binary (bitsOfInt n v) := binary_bitsBE _ _
  have hm : (chrs (bitsOfInt n v)).map LA.lhTable = chrs (bitsOfInt n v) := by
    simp only [chrs, List.map_map]
    apply List.map_congr_left
    intro x hx
    rcases hb x hx with rfl | rfl <;> rfl
  have hu : unsigned (bitsOfInt n v) = some (v % 2 ^ n).toNat := unsigned_bitsBE _ _ (by
    have : ((v % 2 ^ n).toNat : Int) < ((2 ^ n : Nat) : Int) := by
      rw [Int.toNat_of_nonneg h0]; simpa using h1
    omega)
  have hl : bitsOfInt n v ≠ [] := by
    intro hc
    have := congrArg List.length hc
    simp [bitsOfInt] at this
    omega
  have hd : (bitsOfInt n v).head? ≠ some .D := by
    intro hc
    have := hb .D (List.mem_of_head? hc)
    simp at this
  have := pyInt_chrs (bitsOfInt n v) hl hd
  rw [hm, hu] at this
  simpa [chrs, Int.toNat_of_nonneg h0] using this

theorem intGet_back (n : Nat) (hn : 0 < n) (s : Sgn) (hs : s ≠ .unknown) (v : Int) (hv : fits n s v)
    (rd : Reading)
    (hlong : n ≤ 32 → rd.long % 2 ^ n = v % 2 ^ n ∧ -(2 ^ (n - 1)) ≤ rd.long ∧ rd.long < 2 ^ n)
    (hbin : 32 < n → rd.bin = bitsOfInt n v) : intGet n s rd = .ok v := by
  have hp := two_pow_pos n
  have hp1 := two_pow_pos (n - 1)
  have h2 := two_pow_pred n hn
  have key : ∀ res : Int, res % 2 ^ n = v % 2 ^ n → -(2 ^ (n - 1)) ≤ res → res < 2 ^ n →
      (if (!leMax n s res) = true then (.ok (res - 2 ^ n) : PyM Int)
        else if (s = .unsigned && decide (res < 0)) = true then .ok (res + 2 ^ n) else .ok res) = .ok v := by
    intro res hm hl hu
    have hdvd : (2 : Int) ^ n ∣ res - v := Int.emod_eq_emod_iff_emod_sub_eq_zero.1 hm |> Int.dvd_of_emod_eq_zero
    obtain ⟨q, hq⟩ := hdvd
    have hqs : ∀ x : Int, -(2 ^ n : Int) < x → x < 2 ^ n → (2 : Int) ^ n ∣ x → x = 0 := by
      intro x h1 h2 h3
      have h3' : (2 : Int) ^ n ∣ (x.natAbs : Int) := by rwa [Int.dvd_natAbs]
      by_cases hx : x = 0
      · exact hx
      · have := Int.le_of_dvd (by omega) h3'
        omega
    cases s with
    | unknown => exact absurd rfl hs
    | unsigned =>
      simp only [fits] at hv
      have hle : leMax n .unsigned res = true := by simp only [leMax]; rw [leUnsignedMax_iff]; exact hu
      simp only [hle, Bool.not_true, Bool.false_eq_true, if_false, decide_true, Bool.true_and,
        decide_eq_true_eq]
      split
      · have := hqs (res + 2 ^ n - v) (by omega) (by omega)
          ⟨q + 1, by rw [Int.mul_add]; omega⟩
        congr 1; omega
      · have := hqs (res - v) (by omega) (by omega) ⟨q, hq⟩
        congr 1; omega
    | signed =>
      simp only [fits] at hv
      by_cases hle : leMax n .signed res = true
      · have hlt : res < 2 ^ (n - 1) := by simp only [leMax] at hle; rwa [leSignedMax_iff n hn] at hle
        have := hqs (res - v) (by omega) (by omega) ⟨q, hq⟩
        simp only [hle]
        simp
        omega
      · have hlt : ¬ res < 2 ^ (n - 1) := by
          intro hc; apply hle; simp only [leMax]; rw [leSignedMax_iff n hn]; exact hc
        have := hqs (res - 2 ^ n - v) (by omega) (by omega)
          ⟨q - 1, by rw [Int.mul_sub]; omega⟩
        simp only [hle]
        simp
        omega
  unfold intGet
  by_cases h32 : n ≤ 32
  · obtain ⟨ha, hb, hc⟩ := hlong h32
    simp only [h32, if_true, bind, Except.bind]
    exact key _ ha hb hc
  · rw [hbin (by omega)]
    simp only [h32, if_false, intBase2_bits n hn, bind, Except.bind]
    have h0 := Int.emod_nonneg v (show (2 : Int) ^ n ≠ 0 by omega)
    have h1 := Int.emod_lt_of_pos v hp
    exact key _ (Int.emod_emod_of_dvd v (Int.dvd_refl _)) (by omega) h1

/-! ## Strings as signal values -/

theorem toUpper_notLower (c : Char) (h : ¬ (97 ≤ c.toNat ∧ c.toNat ≤ 122)) : c.toUpper = c := by
  unfold Char.toUpper
  rw [dif_neg]
  intro hc
  apply h
  exact ⟨by simpa [UInt32.le_iff_toNat_le] using hc.1, by simpa [UInt32.le_iff_toNat_le] using hc.2⟩

theorem lower_mem (c : Char) (h : 97 ≤ c.toNat ∧ c.toNat ≤ 122) :
    c ∈ "abcdefghijklmnopqrstuvwxyz".toList := by
  have : ∀ n, 97 ≤ n → n ≤ 122 → Char.ofNat n ∈ "abcdefghijklmnopqrstuvwxyz".toList := by
    intro n h1 h2
    obtain ⟨k, rfl⟩ : ∃ k, n = 97 + k := ⟨n - 97, by omega⟩
    have hk : k < 26 := by omega
    have H : ∀ k : Fin 26, Char.ofNat (97 + k.val) ∈ "abcdefghijklmnopqrstuvwxyz".toList := by decide +kernel
    exact H ⟨k, hk⟩
  have e := this c.toNat h.1 h.2
  rwa [Char.ofNat_toNat] at e

theorem literal_upper (c : Char) :
    (∀ x, Logic.ofLiteralChar c = some x → c.toUpper = x.chr) ∧
      (Logic.ofLiteralChar c = none → c.toUpper ∉ LA.strLiterals) := by
  constructor
  · intro x hx
    unfold Logic.ofLiteralChar at hx
    split at hx <;> first | (cases hx; decide +kernel) | cases hx
  · by_cases hl : 97 ≤ c.toNat ∧ c.toNat ≤ 122
    · have hm := lower_mem c hl
      revert c
      have : ∀ c ∈ "abcdefghijklmnopqrstuvwxyz".toList, Logic.ofLiteralChar c = none →
        c.toUpper ∉ LA.strLiterals := by decide +kernel
      intro c _ hm
      exact this c hm
    · rw [toUpper_notLower c hl]
      intro hn hc
      simp only [LA.strLiterals, List.mem_cons, List.not_mem_nil, or_false] at hc
      rcases hc with rfl | rfl | rfl | rfl | rfl | rfl | rfl | rfl | rfl <;> simp [Logic.ofLiteralChar] at hn

theorem elements_upper (s : PyStr) :
    (∀ l, s.mapM Logic.ofLiteralChar = some l → s.map Char.toUpper = chrs l) ∧
    (s.mapM Logic.ofLiteralChar = none →
      (s.map Char.toUpper).any (fun c => !decide (c ∈ LA.strLiterals)) = true) := by
  induction s with
  | nil => constructor <;> simp [chrs]
  | cons c s ih =>
    have hc := literal_upper c
    simp only [List.mapM_cons, Option.bind_eq_bind]
    cases ho : Logic.ofLiteralChar c with
    | none =>
      refine ⟨by simp, fun _ => ?_⟩
      simp [hc.2 ho]
    | some x =>
      cases hm : s.mapM Logic.ofLiteralChar with
      | none =>
        refine ⟨by simp, fun _ => ?_⟩
        have := ih.2 hm
        rw [List.map_cons, List.any_cons, this, Bool.or_true]
      | some l =>
        refine ⟨?_, by simp⟩
        intro l' hl'
        have : x :: l = l' := by simpa using hl'
        subst this
        rw [List.map_cons, hc.1 x ho, ih.1 l hm]
        rfl

/-! ## Elements of nested arrays -/

theorem andThen_ok (l : List (List Call × Bool)) :
    (andThen l).2 = true ↔ ∀ p ∈ l, p.2 = true := by
  induction l with
  | nil => simp [andThen]
  | cons p t ih =>
    obtain ⟨cs, b⟩ := p
    cases b <;> simp [andThen, ih]

theorem andThen_flat (l : List (List Call × Bool)) (h : ∀ p ∈ l, p.2 = true) :
    (andThen l).1 = l.flatMap (·.1) := by
  induction l with
  | nil => simp [andThen]
  | cons p t ih =>
    obtain ⟨cs, b⟩ := p
    have hb : b = true := h (cs, b) (by simp)
    subst hb
    simp [andThen, ih fun p hp => h p (List.mem_cons_of_mem _ hp)]

/-- A `flatMap` over a list is one over its positions. -/
theorem flatMap_range {α β : Type} (l : List α) (f : α → List β) (g : Nat → List β)
    (h : ∀ k x, l[k]? = some x → g k = f x) :
    (List.range l.length).flatMap g = l.flatMap f := by
  induction l generalizing g with
  | nil => rfl
  | cons x xs ih =>
    rw [List.length_cons, List.range_succ_eq_map, List.flatMap_cons, List.flatMap_map,
      List.flatMap_cons, h 0 x rfl, ih (fun k => g (k + 1)) fun k y hy => h (k + 1) y (by simpa using hy)]

theorem rangeSeq_getElem?_nth (l : Int) (d : Dir) (r : Int) (k : Nat)
    (h : k < (rangeSeq l d r).length) : (rangeSeq l d r)[k]? = some (rangeNth l d k) := by
  rw [← Range.items_mk3, range_len] at h
  rw [Range.rangeSeq_getElem? l d r k h]
  cases d <;> simp [rangeNth, Dir.step]; omega

theorem wantedAt_cons (l : Int) (d : Dir) (r : Int) (e : Ty) (ref : Ref) (v : PyVal) (a : SetAct)
    (vs : List PyVal) (hv : v.elems = some vs) (k : Nat) (w : PyVal) (hw : vs[k]? = some w)
    (ks : List Nat) :
    wantedAt (.arr l d r e) ref v a (k :: ks) = wantedAt e (ref.child (rangeNth l d k)) w a ks := by
  simp [wantedAt, valueAt, hv, hw, scalar, handleAt, indexesAt, Ref.child]

theorem requested_ok (env : Env) (ty : Ty) (ref : Ref) (v : PyVal) (a : SetAct)
    (h : (requested env ty ref v a).2 = true) :
    Shaped ty v ∧ (positions ty).map (wantedAt ty ref v a) =
      (requested env ty ref v a).1.map some := by
  induction ty generalizing ref v with
  | leaf l =>
    simp only [requested] at h ⊢
    cases hd : leafDatum l v with
    | error e => simp [hd] at h
    | ok d => simp [Shaped, positions, wantedAt, valueAt, scalar, hd, handleAt, indexesAt,
        Except.toOption]
  | arr lf d rt e ih =>
    simp only [requested] at h ⊢
    cases hv : v.elems with
    | none => simp [hv] at h
    | some vs =>
      simp only [hv] at h ⊢
      by_cases hlen : vs.length = (rangeSeq lf d rt).length
      · rw [if_neg (by simpa using hlen)] at h ⊢
        rw [andThen_ok] at h
        rw [andThen_flat _ h, List.flatMap_map]
        have hz : ∀ (k : Nat) w i, (vs.zip (rangeSeq lf d rt))[k]? = some (w, i) →
            vs[k]? = some w ∧ i = rangeNth lf d k := by
          intro k w i hk
          rw [List.getElem?_zip_eq_some] at hk
          refine ⟨hk.1, ?_⟩
          have hlt : k < (rangeSeq lf d rt).length := (List.getElem?_eq_some_iff.1 hk.2).1
          have := rangeSeq_getElem?_nth lf d rt k hlt
          rw [hk.2] at this
          exact Option.some.inj this
        have hreq : ∀ q ∈ vs.zip (rangeSeq lf d rt), env.missing (ref.child q.2) = false ∧
            (requested env e (ref.child q.2) q.1 a).2 = true := by
          intro q hq
          have := h _ (List.mem_map.2 ⟨q, hq, rfl⟩)
          by_cases hm : env.missing (ref.child q.2) <;> simp [hm] at this
          exact ⟨by simpa using hm, this⟩
        constructor
        · refine ⟨vs, hv, hlen, fun w hw => ?_⟩
          obtain ⟨k, hk, rfl⟩ := List.mem_iff_getElem.1 hw
          have hk' : k < (vs.zip (rangeSeq lf d rt)).length := by simp; omega
          have := hreq ((vs.zip (rangeSeq lf d rt))[k]) (List.getElem_mem hk')
          have e1 := (ih _ _ this.2).1
          simpa using e1
        · rw [positions, List.map_flatMap, List.map_flatMap]
          have hl2 : (rangeSeq lf d rt).length = (vs.zip (rangeSeq lf d rt)).length := by
            simp [hlen]
          rw [hl2]
          apply flatMap_range
          rintro k ⟨w, i⟩ hk
          obtain ⟨h1, rfl⟩ := hz k w i hk
          obtain ⟨hm, hr⟩ := hreq (w, rangeNth lf d k) (List.mem_of_getElem? hk)
          simp only [hm, Bool.false_eq_true, if_false]
          rw [← (ih _ _ hr).2, List.map_map]
          apply List.map_congr_left
          intro ks _
          exact wantedAt_cons lf d rt e ref v a vs hv k w h1 ks
      · rw [if_pos (by simpa using hlen)] at h
        simp at h

theorem requested_succeeds (env : Env) (ty : Ty) (ref : Ref) (v : PyVal) (a : SetAct)
    (hs : Shaped ty v) (hp : Present env ty ref)
    (hw : ∀ p ∈ positions ty, ∀ w, valueAt v p = some w → ∃ d, leafDatum (scalar ty) w = .ok d) :
    (requested env ty ref v a).2 = true := by
  induction ty generalizing ref v with
  | leaf l =>
    obtain ⟨d, hd⟩ := hw [] (by simp [positions]) v rfl
    simp only [scalar] at hd
    simp [requested, hd]
  | arr lf d rt e ih =>
    obtain ⟨vs, hv, hlen, hsh⟩ := hs
    simp only [requested, hv]
    rw [if_neg (by simpa using hlen), andThen_ok]
    intro q hq
    obtain ⟨⟨w, i⟩, hwi, rfl⟩ := List.mem_map.1 hq
    obtain ⟨k, hk⟩ := List.mem_iff_getElem?.1 hwi
    rw [List.getElem?_zip_eq_some] at hk
    obtain ⟨hm, hpe⟩ := hp i (List.mem_of_getElem? hk.2)
    simp only [hm, Bool.false_eq_true, if_false]
    refine ih _ _ (hsh w (List.mem_of_getElem? hk.1)) hpe ?_
    intro p hpp u hu
    have hkl : k < (rangeSeq lf d rt).length := (List.getElem?_eq_some_iff.1 hk.2).1
    exact hw (k :: p) (by
      simp only [positions, List.mem_flatMap, List.mem_range, List.mem_map]
      exact ⟨k, hkl, p, hpp, rfl⟩) u (by simp [valueAt, hv, hk.1, hu])

theorem rangeNth_inj (l : Int) (d : Dir) (a b : Nat) (h : rangeNth l d a = rangeNth l d b) : a = b := by
  cases d <;> simp only [rangeNth] at h <;> omega

theorem indexesAt_inj (ty : Ty) : ∀ p ∈ positions ty, ∀ q ∈ positions ty,
    indexesAt ty p = indexesAt ty q → p = q := by
  induction ty with
  | leaf l => simp [positions]
  | arr lf d rt e ih =>
    intro p hp q hq h
    simp only [positions, List.mem_flatMap, List.mem_range, List.mem_map] at hp hq
    obtain ⟨k, -, ks, hks, rfl⟩ := hp
    obtain ⟨m, -, ms, hms, rfl⟩ := hq
    simp only [indexesAt, List.cons.injEq] at h
    rw [rangeNth_inj lf d k m h.1, ih ks hks ms hms h.2]

theorem positions_nodup (ty : Ty) : (positions ty).Nodup := by
  induction ty with
  | leaf l => simp [positions]
  | arr lf d rt e ih =>
    rw [positions, List.Nodup, List.pairwise_flatMap]
    refine ⟨fun k _ => ?_, ?_⟩
    · rw [List.pairwise_map]
      exact List.Pairwise.imp (fun hab hc => hab (by simpa using hc)) ih
    · refine List.Pairwise.imp ?_ List.nodup_range
      intro a b hab x hx y hy hxy
      obtain ⟨x', -, rfl⟩ := List.mem_map.1 hx
      obtain ⟨y', -, rfl⟩ := List.mem_map.1 hy
      simp only [List.cons.injEq] at hxy
      exact hab hxy.1

theorem handles_nodup (ty : Ty) (ref : Ref) : ((positions ty).map (handleAt ref ty)).Nodup := by
  rw [List.Nodup, List.pairwise_map]
  refine List.Pairwise.imp_of_mem ?_ (positions_nodup ty)
  intro p q hp hq hne hc
  apply hne
  apply indexesAt_inj ty p hp q hq
  simpa [handleAt] using hc

/-! ## Reading nested arrays -/

theorem getElems_ok (f : Int → PyM PyVal) (l : List Int) (vs : List PyVal) :
    getElems f l = .ok vs ↔ vs.length = l.length ∧
      ∀ (k : Nat) i, l[k]? = some i → ∃ v, vs[k]? = some v ∧ f i = .ok v := by
  induction l generalizing vs with
  | nil =>
    simp only [getElems]
    constructor
    · intro h; cases h; simp
    · rintro ⟨h, -⟩; simp at h; rw [h]
  | cons i l ih =>
    simp only [getElems, bind, Except.bind]
    cases hf : f i with
    | error e =>
      simp only [reduceCtorEq, false_iff, not_and]
      intro _ h
      obtain ⟨v, -, hv⟩ := h 0 i rfl
      rw [hf] at hv; cases hv
    | ok v =>
      dsimp only
      cases hg : getElems f l with
      | error e =>
        simp only [reduceCtorEq, false_iff, not_and]
        intro hlen h
        cases vs with
        | nil => simp at hlen
        | cons w ws =>
          have := (ih ws).2 ⟨by simpa using hlen, fun k j hk => by
            simpa using h (k + 1) j (by simpa using hk)⟩
          rw [hg] at this; cases this
      | ok ws =>
        simp only [Except.ok.injEq]
        have hw := (ih ws).1 hg
        constructor
        · rintro rfl
          refine ⟨by simp [hw.1], ?_⟩
          intro k j hk
          cases k with
          | zero => simp at hk; subst hk; exact ⟨v, rfl, hf⟩
          | succ k => simpa using hw.2 k j (by simpa using hk)
        · rintro ⟨hlen, h⟩
          cases vs with
          | nil => simp at hlen
          | cons u us =>
            have h0 := h 0 i rfl
            obtain ⟨u', hu', hu⟩ := h0
            simp at hu'; subst hu'
            rw [hf] at hu; cases hu
            have := (ih us).2 ⟨by simpa using hlen, fun k j hk => by
              simpa using h (k + 1) j (by simpa using hk)⟩
            rw [hg] at this; cases this; rfl

theorem getValue_spec (env : Env) (sim : Sim) (ty : Ty) (ref : Ref) (v : PyVal)
    (h : getValue env sim ty ref = .ok v) :
    Shaped ty v ∧ ∀ p ∈ positions ty, ∃ w, valueAt v p = some w ∧
      leafGet (scalar ty) (sim (handleAt ref ty p)) = .ok w := by
  induction ty generalizing ref v with
  | leaf l =>
    simp only [getValue] at h
    simp [Shaped, positions, valueAt, scalar, handleAt, indexesAt, h]
  | arr lf d rt e ih =>
    simp only [getValue, bind, Except.bind] at h
    cases hg : getElems (fun i => if env.missing (ref.child i) = true then .error .indexError
        else getValue env sim e (ref.child i)) (Range.mk3 lf d rt).items with
    | error e => rw [hg] at h; cases h
    | ok vs =>
      rw [hg] at h
      cases h
      rw [getElems_ok, Range.items_mk3] at hg
      have hel : ∀ (k : Nat) i, (rangeSeq lf d rt)[k]? = some i →
          ∃ v, vs[k]? = some v ∧ getValue env sim e (ref.child i) = .ok v := by
        intro k i hk
        obtain ⟨v, h1, h2⟩ := hg.2 k i hk
        refine ⟨v, h1, ?_⟩
        by_cases hm : env.missing (ref.child i) = true
        · simp [hm] at h2
        · simpa [hm] using h2
      constructor
      · refine ⟨vs, rfl, hg.1, fun w hw => ?_⟩
        obtain ⟨k, hk⟩ := List.mem_iff_getElem?.1 hw
        have hkl : k < (rangeSeq lf d rt).length := by
          rw [← hg.1]; exact (List.getElem?_eq_some_iff.1 hk).1
        obtain ⟨v, h1, h2⟩ := hel k _ (rangeSeq_getElem?_nth lf d rt k hkl)
        rw [hk] at h1; cases h1
        exact (ih _ _ h2).1
      · intro p hp
        simp only [positions, List.mem_flatMap, List.mem_range, List.mem_map] at hp
        obtain ⟨k, hkl, ks, hks, rfl⟩ := hp
        obtain ⟨v, h1, h2⟩ := hel k _ (rangeSeq_getElem?_nth lf d rt k hkl)
        obtain ⟨w, hw, hl⟩ := (ih _ _ h2).2 ks hks
        refine ⟨w, by simp [valueAt, PyVal.elems, h1, hw], ?_⟩
        have : handleAt ref (.arr lf d rt e) (k :: ks) = handleAt (ref.child (rangeNth lf d k)) e ks := by
          simp [handleAt, indexesAt, Ref.child]
        rw [this]; exact hl

theorem getValue_succeeds (env : Env) (sim : Sim) (ty : Ty) (ref : Ref) (hp : Present env ty ref)
    (hl : ∀ p ∈ positions ty, ∃ w, leafGet (scalar ty) (sim (handleAt ref ty p)) = .ok w) :
    ∃ v, getValue env sim ty ref = .ok v := by
  induction ty generalizing ref with
  | leaf l =>
    obtain ⟨w, hw⟩ := hl [] (by simp [positions])
    exact ⟨w, by simpa [getValue, scalar, handleAt, indexesAt] using hw⟩
  | arr lf d rt e ih =>
    have hel : ∀ (k : Nat) i, (rangeSeq lf d rt)[k]? = some i → ∃ v, getValue env sim e (ref.child i) = .ok v := by
      intro k i hk
      have hkl : k < (rangeSeq lf d rt).length := (List.getElem?_eq_some_iff.1 hk).1
      have hi := rangeSeq_getElem?_nth lf d rt k hkl
      rw [hk] at hi; cases hi
      refine ih _ (hp _ (List.mem_of_getElem? hk)).2 fun p hpp => ?_
      have := hl (k :: p) (by
        simp only [positions, List.mem_flatMap, List.mem_range, List.mem_map]
        exact ⟨k, hkl, p, hpp, rfl⟩)
      have he : handleAt ref (.arr lf d rt e) (k :: p) = handleAt (ref.child (rangeNth lf d k)) e p := by
        simp [handleAt, indexesAt, Ref.child]
      rwa [he] at this
    have hall : ∀ l : List Int, (∀ i ∈ l, env.missing (ref.child i) = false ∧
        ∃ v, getValue env sim e (ref.child i) = .ok v) →
        ∃ vs, getElems (fun i => if env.missing (ref.child i) = true then .error .indexError
        else getValue env sim e (ref.child i)) l = .ok vs := by
      intro l
      induction l with
      | nil => intro _; exact ⟨[], rfl⟩
      | cons i l ihl =>
        intro h
        obtain ⟨hm, v, hv⟩ := h i (by simp)
        obtain ⟨vs, hvs⟩ := ihl fun j hj => h j (List.mem_cons_of_mem _ hj)
        exact ⟨v :: vs, by simp [getElems, hm, hv, hvs, bind, Except.bind]⟩
    obtain ⟨vs, hvs⟩ := hall (Range.mk3 lf d rt).items (by
      rw [Range.items_mk3]
      intro i hi
      obtain ⟨k, hk⟩ := List.mem_iff_getElem?.1 hi
      exact ⟨(hp i hi).1, hel k i hk⟩)
    exact ⟨.array (Range.mk3 lf d rt) vs, by simp [getValue, hvs, bind, Except.bind]⟩

end Verif.Hdl
