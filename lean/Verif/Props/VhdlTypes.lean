import Verif.Lemmas.Vhpi
import Verif.Model.Fli
/-!
# C124: types of VHDL objects
-/
namespace Verif

open Vhpi Spec

/-! ## VHPI -/

/-- C124, full statement for the VHPI: an object of an enumeration type is what the type means, and so is an
array of one dimension of it. -/
def C124_vhpi_full : Prop :=
  ∀ (c : Flavor) (V : Vhpi) (h : H) (name : Text) (bare : Bool) (t : EnumType), (∀ l ∈ t.lits, l.Legal) →
    (V.ty h = some (.enum t.name (t.texts bare)) → gpiType c V h name = some t.kind.object) ∧
    (V.ty h = some (.array (some (.enum t.name (t.texts bare)))) → V.numDim h = 1 →
      gpiType c V h name = some t.kind.arrayObject)

/-- A type whose name or literals are not mistaken: the names that start like the ones of the standard are
names of such types, characters and identifiers are not mixed, identifiers that start with `true` or
`false` are these, and there are no other types with 256 literals than `character`. -/
structure Spec.EnumType.Plain (t : EnumType) : Prop where
  logic : (ofStr "BIT".toList <+: t.name ∨ ofStr "STD_ULOGIC".toList <+: t.name ∨ ofStr "STD_LOGIC".toList <+: t.name) →
    t.lits = stdBit ∨ t.lits = stdUlogic
  character : ofStr "CHARACTER".toList <+: t.name → t.name = ofStr "CHARACTER".toList
  boolean : ofStr "BOOLEAN".toList <+: t.name → t.lits ∈ booleans
  same : (∀ l ∈ t.lits, ∃ c, l = .chr c) ∨ (∀ l ∈ t.lits, ∃ s, l = .ident s)
  words : ∀ s w, .ident s ∈ t.lits → w ∈ ["FALSE", "false", "TRUE", "true"] → ofStr w.toList <+: s → s = ofStr w.toList
  count : t.lits.length = 256 ↔ t.name = ofStr "CHARACTER".toList

/-- One literal against an expected character that is no letter, backslash or quote. -/
theorem lit_matches (bare : Bool) (l : Lit) (e : Nat) (he : e ≠ 39) :
    ([e].isPrefixOf (l.text bare) || (39 :: ([e] ++ [39])).isPrefixOf (l.text bare)) = true ↔
      l = .chr e ∨ ∃ s, l = .ident s ∧ ((∃ r, s = e :: r) ∨ ∃ r, s = 39 :: e :: 39 :: r) := by
  cases l with
  | chr c =>
    cases bare
    · simp [Lit.text, List.isPrefixOf]; constructor <;> intro h <;> omega
    · simp [Lit.text, List.isPrefixOf]; exact eq_comm
  | ident s =>
    simp only [Lit.text, Bool.or_eq_true, List.isPrefixOf_iff_prefix, reduceCtorEq, false_or, Lit.ident.injEq,
      exists_eq_left']
    refine or_congr ?_ ?_
    · constructor
      · rintro ⟨r, rfl⟩; exact ⟨r, rfl⟩
      · rintro ⟨r, rfl⟩; exact ⟨r, rfl⟩
    · constructor
      · rintro ⟨r, rfl⟩; exact ⟨r, rfl⟩
      · rintro ⟨r, rfl⟩; exact ⟨r, rfl⟩

/-- All literals, if they are characters. -/
theorem litsAre_chars (bare : Bool) : ∀ (es : List Nat) (ls : List Lit), (∀ e ∈ es, e ≠ 39) → es.length = ls.length →
    (∀ l ∈ ls, ∃ c, l = .chr c) → (litsAre (es.map fun e => [e]) (ls.map (Lit.text bare)) = true ↔ ls = es.map .chr) := by
  intro es
  induction es with
  | nil => intro ls _ hl _; have : ls = [] := by simpa using hl.symm
           subst this; simp [litsAre]
  | cons e es ih =>
    intro ls he hl hc
    cases ls with
    | nil => cases hl
    | cons l ls =>
      simp only [List.map_cons, litsAre, Bool.and_eq_true]
      rw [lit_matches bare l e (he e List.mem_cons_self), ih ls (fun x hx => he x (List.mem_cons_of_mem _ hx)) (by simpa using hl)
        (fun x hx => hc x (List.mem_cons_of_mem _ hx))]
      obtain ⟨c, rfl⟩ := hc l List.mem_cons_self
      simp

/-- Identifiers are not taken for digits. -/
theorem litsAre_ident (bare : Bool) {ls : List Lit} {es : List Text} (hi : ∀ l ∈ ls, ∃ s, l = .ident s)
    (hl : ∀ l ∈ ls, l.Legal) (k : Nat) (he : es[k]? = some [48]) (hk : k < ls.length) :
    litsAre es (ls.map (Lit.text bare)) = false := by
  induction es generalizing ls k with
  | nil => simp at he
  | cons e es ih =>
    cases ls with
    | nil => simp at hk
    | cons l ls =>
      simp only [List.map_cons, litsAre, Bool.and_eq_false_iff]
      cases k with
      | zero =>
        left
        simp at he; subst he
        rw [Bool.eq_false_iff]
        intro h
        rcases (lit_matches bare l 48 (by decide)).1 h with rfl | ⟨s, rfl, hh⟩
        · obtain ⟨s, hs⟩ := hi _ List.mem_cons_self; cases hs
        · obtain ⟨c, r, rfl, hc⟩ := hl _ List.mem_cons_self
          rcases hh with ⟨r', hh⟩ | ⟨r', hh⟩ <;> simp at hh <;> omega
      | succ k =>
        right
        exact ih (fun x hx => hi x (List.mem_cons_of_mem _ hx)) (fun x hx => hl x (List.mem_cons_of_mem _ hx)) k (by simpa using he)
          (by simpa using hk)

theorem bitLits_eq : bitLits = ([48, 49].map fun e => [e]) := by decide +kernel
theorem logicLits_eq : logicLits = ([85, 88, 48, 49, 90, 87, 76, 72, 45].map fun e => [e]) := by decide +kernel
theorem bit_eq : stdBit = [48, 49].map .chr := by decide +kernel
theorem stdUlogic_eq : stdUlogic = [85, 88, 48, 49, 90, 87, 76, 72, 45].map .chr := by decide +kernel

/-- `is_enum_logic` for a plain type. -/
theorem isLogic_plain {t : EnumType} (hp : t.Plain) (hl : ∀ l ∈ t.lits, l.Legal) (bare : Bool) :
    isLogic t.name (t.texts bare) = true ↔ t.lits = stdBit ∨ t.lits = stdUlogic := by
  have hlen : (t.texts bare).length = t.lits.length := by simp [EnumType.texts]
  unfold isLogic
  split
  · rename_i hn
    simp only [Bool.or_eq_true, List.isPrefixOf_iff_prefix] at hn
    refine iff_of_true rfl (hp.logic ?_)
    rcases hn with (hn | hn) | hn
    · exact Or.inl hn
    · exact Or.inr (Or.inl hn)
    · exact Or.inr (Or.inr hn)
  · rw [hlen]
    split
    · rename_i h2
      have h9 : t.lits ≠ stdUlogic := by intro e; rw [e] at h2; revert h2; decide +kernel
      rcases hp.same with hc | hi
      · unfold EnumType.texts
        rw [bitLits_eq, litsAre_chars bare _ _ (by decide) (by simpa using h2.symm) hc, bit_eq]
        simp [h9]
      · have : litsAre bitLits (t.texts bare) = false :=
          litsAre_ident bare hi hl 0 (by decide +kernel) (by omega)
        rw [this]
        refine iff_of_false (by decide) ?_
        rintro (e | e)
        · have := hi (.chr 48) (by rw [e]; decide +kernel)
          obtain ⟨s, hs⟩ := this; cases hs
        · exact h9 e
    · rename_i h2
      have h2' : t.lits ≠ stdBit := by intro e; rw [e] at h2; revert h2; decide +kernel
      split
      · rename_i h9
        rcases hp.same with hc | hi
        · unfold EnumType.texts
          rw [logicLits_eq, litsAre_chars bare _ _ (by decide) (by simpa using h9.symm) hc, stdUlogic_eq]
          simp [h2']
        · have : litsAre logicLits (t.texts bare) = false :=
            litsAre_ident bare hi hl 2 (by decide +kernel) (by omega)
          rw [this]
          refine iff_of_false (by decide) ?_
          rintro (e | e)
          · exact h2' e
          · have := hi (.chr 48) (by rw [e]; decide +kernel)
            obtain ⟨s, hs⟩ := this; cases hs
      · rename_i h9
        refine iff_of_false (by decide) ?_
        rintro (e | e)
        · exact h2' e
        · apply h9; rw [e]; decide +kernel

/-- `is_enum_char` for a plain type. -/
theorem isChar_plain {t : EnumType} (hp : t.Plain) (bare : Bool) :
    isChar t.name (t.texts bare) = true ↔ t.name = ofStr "CHARACTER".toList := by
  unfold isChar
  split
  · rename_i h
    exact iff_of_true rfl (hp.character (List.isPrefixOf_iff_prefix.1 h))
  · simp only [decide_eq_true_eq]
    rw [← hp.count]; simp [EnumType.texts]

/-- `is_enum_boolean` for a plain type. -/
theorem isBoolean_plain {t : EnumType} (hp : t.Plain) (bare : Bool) :
    isBoolean t.name (t.texts bare) = true ↔ t.lits ∈ booleans := by
  unfold isBoolean
  split
  · rename_i h
    exact iff_of_true rfl (hp.boolean (List.isPrefixOf_iff_prefix.1 h))
  · have hword : ∀ (l : Lit) (w : String), 3 < w.length → l ∈ t.lits → w ∈ ["FALSE", "false", "TRUE", "true"] →
        ((str w).isPrefixOf (l.text bare) = true ↔ l = .ident (ofStr w.toList)) := by
      intro l w hw hl hm
      rw [List.isPrefixOf_iff_prefix]
      constructor
      · intro h
        cases l with
        | chr c =>
          have := h.length_le
          rw [show (str w).length = w.length by simp [str, ofStr, String.length_toList]] at this
          cases bare <;> simp [Lit.text] at this <;> omega
        | ident s => rw [hp.words s w hl hm h]
      · rintro rfl; exact List.prefix_refl _
    rcases hls : t.lits with _ | ⟨a, _ | ⟨b, _ | ⟨d, r⟩⟩⟩
    · simp only [EnumType.texts, hls, List.map_nil]; decide +kernel
    · simp only [EnumType.texts, hls, List.map_cons, List.map_nil]
      refine iff_of_false (by decide) (by simp [booleans])
    · simp only [EnumType.texts, hls, List.map_cons, List.map_nil]
      rw [Bool.and_eq_true, Bool.or_eq_true, Bool.or_eq_true,
        hword a "FALSE" (by decide) (by simp [hls]) (by simp), hword a "false" (by decide) (by simp [hls]) (by simp),
        hword b "TRUE" (by decide) (by simp [hls]) (by simp), hword b "true" (by decide) (by simp [hls]) (by simp)]
      simp only [booleans, List.mem_cons, List.not_mem_nil, or_false, List.cons.injEq, and_true]
      constructor
      · rintro ⟨rfl | rfl, rfl | rfl⟩ <;> simp
      · rintro (⟨rfl, rfl⟩ | ⟨rfl, rfl⟩ | ⟨rfl, rfl⟩ | ⟨rfl, rfl⟩) <;> simp
    · simp only [EnumType.texts, hls, List.map_cons]
      refine iff_of_false (by decide) (by simp [booleans])

/-- C124: for types that are not mistaken for others. -/
theorem C124_vhpi_partial (c : Flavor) (V : Vhpi) (h : H) (name : Text) (bare : Bool) (t : EnumType)
    (hl : ∀ l ∈ t.lits, l.Legal) (hp : t.Plain) :
    (V.ty h = some (.enum t.name (t.texts bare)) → gpiType c V h name = some t.kind.object) ∧
    (V.ty h = some (.array (some (.enum t.name (t.texts bare)))) → V.numDim h = 1 →
      gpiType c V h name = some t.kind.arrayObject) := by
  have h1 := isLogic_plain hp hl bare
  have h2 := isChar_plain hp bare
  have h3 := isBoolean_plain hp bare
  constructor
  · intro ht
    unfold gpiType EnumType.kind
    rw [ht]
    simp only []
    by_cases a : t.lits = stdBit ∨ t.lits = stdUlogic
    · rw [if_pos (h1.2 a), if_pos a]; rfl
    · rw [if_neg (fun e => a (h1.1 e)), if_neg a]
      by_cases b : t.name = ofStr "CHARACTER".toList
      · rw [if_pos (h2.2 b), if_pos b]; rfl
      · rw [if_neg (fun e => b (h2.1 e)), if_neg b]
        by_cases d : t.lits ∈ booleans
        · rw [if_pos (h3.2 d), if_pos d]; rfl
        · rw [if_neg (fun e => d (h3.1 e)), if_neg d]; rfl
  · intro ht hd
    unfold gpiType EnumType.kind
    rw [ht]
    simp only [hd, gt_iff_lt, Nat.lt_irrefl, if_false]
    by_cases a : t.lits = stdBit ∨ t.lits = stdUlogic
    · rw [if_pos (h1.2 a), if_pos a]; rfl
    · rw [if_neg (fun e => a (h1.1 e)), if_neg a]
      by_cases b : t.name = ofStr "CHARACTER".toList
      · rw [if_pos (h2.2 b), if_pos b]; rfl
      · rw [if_neg (fun e => b (h2.1 e)), if_neg b]
        split <;> rfl

/-- `type state is (idle, run, '0')` without the last. -/
def exState : EnumType := ⟨ofStr "STATE".toList, [.ident (ofStr "IDLE".toList), .ident (ofStr "RUN".toList)]⟩

example : exState.Plain ∧ exState.kind = .enum := by
  refine ⟨⟨by decide +kernel, by decide +kernel, by decide +kernel, Or.inr (by simp [exState]), ?_, by decide +kernel⟩, by decide +kernel⟩
  intro s w hs hw hp
  simp only [exState, List.mem_cons, Lit.ident.injEq, List.not_mem_nil, or_false] at hs hw
  exfalso
  rcases hs with rfl | rfl <;> rcases hw with rfl | rfl | rfl | rfl <;> revert hp <;> decide +kernel

/-- `type bit_state is (idle, run)`. -/
def exBitState : EnumType := ⟨ofStr "BIT_STATE".toList, exState.lits⟩

/-- A design with one object of this type. -/
def exBitVhpi : Vhpi where
  kind _ := .sigDecl
  ty _ := some (.enum exBitState.name (exBitState.texts false))
  caseName _ := none
  numDim _ := 0
  baseCons _ := []
  subCons _ := []
  byIndex _ _ := none
  byName _ := none
  iter _ _ := none
  chain _ := []
  static _ := false
  format _ := some .enum
  size _ := 1
  entity _ := none
  root := none

/-- An enumeration whose name starts with `bit` is taken for a logic type. -/
theorem C124_vhpi_counterexample : ¬ C124_vhpi_full := by
  intro H
  have := (H {} exBitVhpi 0 [] false exBitState
    (by
      intro l hl
      simp only [exBitState, exState, List.mem_cons, List.not_mem_nil, or_false] at hl
      rcases hl with rfl | rfl
      · exact ⟨73, _, rfl, by decide⟩
      · exact ⟨82, _, rfl, by decide⟩)).1 rfl
  revert this
  decide +kernel

/-- So is `type alarm is (false_alarm, true_alarm)` for a Boolean and `type level is (up, …)` with nine
literals that start like the ones of `std_ulogic`. -/
example : isBoolean (str "ALARM") [str "FALSE_ALARM", str "TRUE_ALARM"] = true ∧
    isLogic (str "LEVEL") [str "UP", str "XX", str "'0'", str "'1'", str "ZZ", str "WW", str "LL", str "HH", str "'-'"] = true := by
  decide +kernel

/-! ## Other types -/

/-- C124: integers, reals, records and arrays of more than one dimension. -/
theorem C124_vhpi_other (c : Flavor) (V : Vhpi) (h : H) (name : Text) :
    (V.ty h = some .int → gpiType c V h name = some .integer) ∧
    (V.ty h = some .float → gpiType c V h name = some .real) ∧
    (V.ty h = some .record → gpiType c V h name = some .structure) ∧
    (∀ e, V.ty h = some (.array e) → 1 < V.numDim h → gpiType c V h name = some .array) := by
  refine ⟨?_, ?_, ?_, ?_⟩
  · intro h; unfold gpiType; rw [h]
  · intro h; unfold gpiType; rw [h]
  · intro h; unfold gpiType; rw [h]
  · intro e h hd; unfold gpiType; rw [h]; simp [hd]

/-! ## FLI -/

/-- The Booleans of the FLI are in capitals. -/
def Spec.fliBoolean : List Lit := [.ident (ofStr "FALSE".toList), .ident (ofStr "TRUE".toList)]

/-- What an enumeration is, in the FLI. -/
def Spec.EnumType.fliKind (t : EnumType) : EnumKind :=
  if t.lits = stdBit ∨ t.lits = stdUlogic then .logic
  else if t.name = ofStr "CHARACTER".toList then .character
  else if t.lits = fliBoolean then .boolean
  else .enum

/-- C124, full statement for the FLI. -/
def C124_fli_full : Prop :=
  ∀ (t : EnumType), (∀ l ∈ t.lits, l.Legal) → (t.name = ofStr "CHARACTER".toList → t.lits.length = 256) →
    Fli.valueType (.enum (t.texts false)) = some t.fliKind.object ∧
    ∀ l r d n, Fli.valueType (.array l r d n (.enum (t.texts false))) = some t.fliKind.arrayObject

theorem text_inj {a b : Lit} (ha : a.Legal) (hb : b.Legal) (h : a.text false = b.text false) : a = b := by
  cases a with
  | chr c =>
    cases b with
    | chr d => simp [Lit.text] at h; rw [h]
    | ident s =>
      obtain ⟨d, r, rfl, hd⟩ := hb
      simp [Lit.text] at h; omega
  | ident t =>
    obtain ⟨c, r, rfl, hc⟩ := ha
    cases b with
    | chr d => simp [Lit.text] at h; omega
    | ident s => simp [Lit.text] at h; rw [h]

theorem texts_inj : ∀ {a b : List Lit}, (∀ l ∈ a, l.Legal) → (∀ l ∈ b, l.Legal) →
    a.map (Lit.text false) = b.map (Lit.text false) → a = b := by
  intro a
  induction a with
  | nil => intro b _ _ h; cases b with
    | nil => rfl
    | cons x b => cases h
  | cons x a ih =>
    intro b ha hb h
    cases b with
    | nil => cases h
    | cons y b =>
      simp only [List.map_cons, List.cons.injEq] at h
      rw [text_inj (ha x List.mem_cons_self) (hb y List.mem_cons_self) h.1,
        ih (fun l hl => ha l (List.mem_cons_of_mem _ hl)) (fun l hl => hb l (List.mem_cons_of_mem _ hl)) h.2]

theorem legal_chars {ls : List Lit} (h : ∀ l ∈ ls, ∃ c, l = .chr c) : ∀ l ∈ ls, l.Legal := by
  intro l hl; obtain ⟨c, rfl⟩ := h l hl; trivial

/-- C124: all enumerations that do not have 256 literals, or are `character`. -/
theorem C124_fli_partial (t : EnumType) (hl : ∀ l ∈ t.lits, l.Legal)
    (hc : t.name = ofStr "CHARACTER".toList ↔ t.lits.length = 256) :
    Fli.valueType (.enum (t.texts false)) = some t.fliKind.object ∧
    ∀ l r d n, Fli.valueType (.array l r d n (.enum (t.texts false))) = some t.fliKind.arrayObject := by
  have hlen : (t.texts false).length = t.lits.length := by simp [EnumType.texts]
  have hbl : ∀ l ∈ stdBit, l.Legal := legal_chars (by rw [bit_eq]; intro l hl; obtain ⟨c, _, rfl⟩ := List.mem_map.1 hl; exact ⟨c, rfl⟩)
  have hsl : ∀ l ∈ stdUlogic, l.Legal :=
    legal_chars (by rw [stdUlogic_eq]; intro l hl; obtain ⟨c, _, rfl⟩ := List.mem_map.1 hl; exact ⟨c, rfl⟩)
  have hfl : ∀ l ∈ fliBoolean, l.Legal := by
    intro l hl
    simp only [fliBoolean, List.mem_cons, List.not_mem_nil, or_false] at hl
    rcases hl with rfl | rfl
    · exact ⟨70, _, rfl, by decide⟩
    · exact ⟨84, _, rfl, by decide⟩
  have ebit : [Fli.str "'0'", Fli.str "'1'"] = stdBit.map (Lit.text false) := by decide +kernel
  have estd : [Fli.str "'U'", Fli.str "'X'", Fli.str "'0'", Fli.str "'1'", Fli.str "'Z'", Fli.str "'W'", Fli.str "'L'",
      Fli.str "'H'", Fli.str "'-'"] = stdUlogic.map (Lit.text false) := by decide +kernel
  have ebool : [Fli.str "FALSE", Fli.str "TRUE"] = fliBoolean.map (Lit.text false) := by decide +kernel
  have h1 : Fli.isLogic (t.texts false) = true ↔ t.lits = stdBit ∨ t.lits = stdUlogic := by
    unfold Fli.isLogic
    rw [hlen, ebit, estd]
    constructor
    · intro h
      split at h
      · exact Or.inl (texts_inj hl hbl (by simpa [EnumType.texts] using h))
      · split at h
        · exact Or.inr (texts_inj hl hsl (by simpa [EnumType.texts] using h))
        · cases h
    · rintro (e | e)
      · rw [if_pos (by rw [e]; decide +kernel)]; simp [EnumType.texts, e]
      · rw [if_neg (by rw [e]; decide +kernel), if_pos (by rw [e]; decide +kernel)]; simp [EnumType.texts, e]
  have h2 : Fli.isChar (t.texts false) = true ↔ t.name = ofStr "CHARACTER".toList := by
    unfold Fli.isChar; rw [hlen, hc]; simp
  have h3 : Fli.isBoolean (t.texts false) = true ↔ t.lits = fliBoolean := by
    unfold Fli.isBoolean
    rw [hlen, ebool]
    constructor
    · intro h
      split at h
      · exact texts_inj hl hfl (by simpa [EnumType.texts] using h)
      · cases h
    · intro e
      rw [if_pos (by rw [e]; decide +kernel)]; simp [EnumType.texts, e]
  constructor
  · unfold Fli.valueType EnumType.fliKind
    by_cases a : t.lits = stdBit ∨ t.lits = stdUlogic
    · simp only [h1.2 a, if_pos a, if_true]; rfl
    · simp only [Bool.eq_false_iff.2 (fun e => a (h1.1 e)), if_neg a]
      by_cases b : t.name = ofStr "CHARACTER".toList
      · simp only [h2.2 b, if_pos b, Bool.or_true]; rfl
      · simp only [Bool.eq_false_iff.2 (fun e => b (h2.1 e)), if_neg b, Bool.or_false]
        by_cases d : t.lits = fliBoolean
        · simp only [h3.2 d, if_pos d]; rfl
        · simp only [Bool.eq_false_iff.2 (fun e => d (h3.1 e)), if_neg d]; rfl
  · intro l r d n
    unfold Fli.valueType EnumType.fliKind
    by_cases a : t.lits = stdBit ∨ t.lits = stdUlogic
    · simp only [h1.2 a, if_pos a, if_true]; rfl
    · simp only [Bool.eq_false_iff.2 (fun e => a (h1.1 e)), if_neg a]
      by_cases b : t.name = ofStr "CHARACTER".toList
      · simp only [h2.2 b, if_pos b]; rfl
      · simp only [Bool.eq_false_iff.2 (fun e => b (h2.1 e)), if_neg b]
        by_cases d : t.lits = fliBoolean
        · simp only [if_pos d]; rfl
        · simp only [if_neg d]; rfl

/-- A type with 256 identifiers. -/
def exBig : EnumType := ⟨ofStr "OPCODE".toList, List.replicate 256 (.ident [65])⟩

/-- An enumeration with 256 literals is taken for `character`. -/
theorem C124_fli_counterexample : ¬ C124_fli_full := by
  intro H
  have := (H exBig (by intro l hl; rw [List.eq_of_mem_replicate hl]; exact ⟨65, [], rfl, by decide⟩)
    (fun _ => List.length_replicate)).1
  revert this
  decide +kernel

example : (exState.name = ofStr "CHARACTER".toList ↔ exState.lits.length = 256) ∧
    Fli.valueType (.enum (exBitState.texts false)) = some .enum := by decide +kernel

/-- C124: the other types of the FLI. -/
theorem C124_fli_other (l r : Int) (d : Vhpi.Dir) (n : Int) :
    Fli.valueType .scalar = some .integer ∧ Fli.valueType .physical = some .integer ∧ Fli.valueType .real = some .real ∧
    Fli.valueType .record = some .structure ∧ Fli.valueType (.array l r d n .other) = some .array := ⟨rfl, rfl, rfl, rfl, rfl⟩

end Verif
