import Verif.Model.ResultPaths
import Verif.Spec.ResultPaths
/-! # C174: paths in files of results -/
namespace Verif
open ResultPaths
open ResultPaths.Spec (readFrom Leads Name)

namespace ResultPathsL

theorem relTo_some {b q r : List Text} (h : relTo b q = some r) : q = b ++ r := by
  induction b generalizing q with
  | nil => simp [relTo] at h; simp [h]
  | cons x b ih =>
    cases q with
    | nil => simp [relTo] at h
    | cons y q =>
      simp only [relTo] at h
      split at h
      · next e => subst e; simp [ih h]
      · simp at h

theorem relTo_append (b r : List Text) : relTo b (b ++ r) = some r := by
  induction b with
  | nil => rfl
  | cons x b ih => simp [relTo, ih]

theorem relTo_none {b q : List Text} (h : relTo b q = none) : ∀ r, q ≠ b ++ r := by
  intro r e
  subst e
  rw [relTo_append] at h
  simp at h

theorem leads_rel {fs : FS} {b r : List Text} {p : P} (hc : ∀ q, fs.canon (fs.canon q) = fs.canon q)
    (h : relTo b (resolve fs p) = some r) : Leads fs b ⟨false, r⟩ p := by
  have := relTo_some h
  simp only [Leads, readFrom, Bool.false_eq_true, if_false]
  rw [← this, resolve, hc]

theorem get_of_run {canon : List Text → List Text} {base : Option (List Text)} {d : List Text} :
    ∀ (xs : List P) (cache : List (P × P)), (∀ k v, dictGet cache k = some v → v = xunit ⟨d, canon⟩ base k) →
    xunitRun canon base (xs.map fun p => (d, p)) cache = xs.map (xunit ⟨d, canon⟩ base) := by
  intro xs
  induction xs with
  | nil => intro cache h; rfl
  | cons p xs ih =>
    intro cache h
    simp only [List.map_cons, xunitRun, xunitCached]
    cases hg : dictGet cache p with
    | some r =>
      simp only
      rw [h p r hg, ih cache h]
    | none =>
      simp only
      rw [ih]
      intro k v hk
      by_cases e : k = p
      · subst e
        rw [dictGet_set_same] at hk
        exact (Option.some.inj hk).symm
      · rw [dictGet_set_other _ _ _ _ (Ne.symm e)] at hk
        exact h k v hk

theorem replaceGo_skip' (old u t : Text) : replaceGo old [] u.length (u ++ t) = replaceGo old [] 0 t := by
  induction u with
  | nil => rfl
  | cons c u ih => rw [List.length_cons, List.cons_append, replaceGo]; exact ih

theorem replace_hit (old t : Text) (h : old ≠ []) : replaceText old [] (old ++ t) = replaceText old [] t := by
  obtain ⟨c, u, rfl⟩ : ∃ c u, old = c :: u := by
    cases old with
    | nil => exact absurd rfl h
    | cons c u => exact ⟨c, u, rfl⟩
  unfold replaceText
  rw [List.cons_append, replaceGo, if_pos (by
    rw [List.isPrefixOf_iff_prefix]
    exact ⟨t, by simp⟩)]
  have := replaceGo_skip' (c :: u) u t
  simpa using this

theorem replace_free (old t : Text) (h : ∀ a c : Text, t ≠ a ++ old ++ c) : replaceText old [] t = t := by
  unfold replaceText
  induction t with
  | nil => rfl
  | cons c t ih =>
    rw [replaceGo, if_neg, ih]
    · intro a d e
      exact h (c :: a) d (by rw [e]; simp)
    · intro hp
      obtain ⟨d, hd⟩ := List.isPrefixOf_iff_prefix.1 hp
      exact h [] d (by rw [← hd]; simp)

theorem strAbs_append (b : List Text) (hb : b ≠ []) (r : List Text) (hr : r ≠ []) :
    strAbs (b ++ r) = strAbs b ++ strAbs r := by
  induction b with
  | nil => exact absurd rfl hb
  | cons x b ih =>
    cases b with
    | nil =>
      cases r with
      | nil => exact absurd rfl hr
      | cons y ys => simp [strAbs]
    | cons z zs =>
      have := ih (by simp)
      simp only [List.cons_append, strAbs] at this ⊢
      rw [this]
      simp

theorem strAbs_cons (r : List Text) : ∃ t, strAbs r = 47 :: t := by
  match r with
  | [] => exact ⟨[], rfl⟩
  | [x] => exact ⟨x, rfl⟩
  | x :: y :: xs => exact ⟨_, rfl⟩

theorem strAbs_below (b r : List Text) (hb : b ≠ []) (hr : r ≠ []) :
    strAbs (b ++ r) = baseStr b ++ str ⟨false, r⟩ := by
  rw [strAbs_append b hb r hr]
  obtain ⟨t, ht⟩ := strAbs_cons r
  simp [baseStr, str, hr, ht]

/-- The texts of the reporter (`Model/XUnit`) are treated so. -/
theorem text_xunit (K : XUnit.Conf) (b : List Text) (h : K.relativeTo = some (baseStr b)) (t : Text) :
    XUnit.relativePaths K t = text b t := by
  simp [XUnit.relativePaths, text, h]

end ResultPathsL
open ResultPathsL

/-- A file system without links, the process in /sim. -/
def exSimFS : FS := ⟨["sim".toList.map Char.toNat], id⟩

def exPart (s : String) : Text := s.toList.map Char.toNat

/-- C174, in full for the results file of cocotb: if a base directory is given, the path of a test in the file leads from
there to the file of the test. -/
def C174_xunit_full : Prop := ∀ (fs : FS) (base : List Text) (p : P), (∀ q, fs.canon (fs.canon q) = fs.canon q) →
  fs.canon base = base → Leads fs base (xunit fs (some base) p) p

/-- C174: it does not if the path is relative and the file outside the base: the path stays as it is, relative to the
directory of the simulation. -/
theorem C174_xunit_counterexample : ¬ C174_xunit_full := by
  intro h
  have := h exSimFS [exPart "work"] ⟨false, [exPart "a.py"]⟩ (fun _ => rfl) rfl
  exact absurd this (by unfold Leads; decide +kernel)

/-- C174, partial (the full claim is false of the code): it does for absolute paths, and for all files below the base. In
those cases a file below the base has a path relative to it, and only those. -/
theorem C174_xunit_partial (fs : FS) (base : List Text) (p : P) (hc : ∀ q, fs.canon (fs.canon q) = fs.canon q)
    (h : p.abs = true ∨ base <+: resolve fs p) :
    Leads fs base (xunit fs (some base) p) p ∧
    ((xunit fs (some base) p).abs = false ↔ base <+: resolve fs p) := by
  simp only [xunit]
  cases hr : relTo base (resolve fs p) with
  | some r =>
    exact ⟨leads_rel hc hr, by simp only [true_iff]; exact ⟨r, (relTo_some hr).symm⟩⟩
  | none =>
    have hn : ¬ base <+: resolve fs p := by
      rintro ⟨r, e⟩
      exact relTo_none hr r e.symm
    rcases h with h | h
    · refine ⟨by simp [Leads, readFrom, full, h], ?_⟩
      simp only [h, Bool.true_eq_false, false_iff]
      exact hn
    · exact absurd h hn

example : xunit exSimFS (some [exPart "work"]) ⟨true, [exPart "work", exPart "t", exPart "a.py"]⟩ =
      ⟨false, [exPart "t", exPart "a.py"]⟩ ∧
    xunit exSimFS (some [exPart "sim"]) ⟨false, [exPart "a.py"]⟩ = ⟨false, [exPart "a.py"]⟩ ∧
    xunit exSimFS (some [exPart "work"]) ⟨true, [exPart "lib", exPart "a.py"]⟩ = ⟨true, [exPart "lib", exPart "a.py"]⟩ := by
  decide +kernel

/-- C174, in full: the same for all paths of a run of the simulation, whatever directories it is in. -/
def C174_cache_full : Prop := ∀ (canon : List Text → List Text) (base : List Text) (xs : List (List Text × P)),
  (∀ q, canon (canon q) = canon q) →
  xunitRun canon (some base) xs [] = xs.map fun x => xunit ⟨x.1, canon⟩ (some base) x.2

/-- C174: a path is remembered: after a change of the directory a relative path is reported as before. -/
theorem C174_cache_counterexample : ¬ C174_cache_full := by
  intro h
  have := h id [exPart "work"] [([exPart "work", exPart "x"], ⟨false, [exPart "a.py"]⟩),
    ([exPart "work", exPart "y"], ⟨false, [exPart "a.py"]⟩)] (fun _ => rfl)
  exact absurd this (by decide +kernel)

/-- C174, partial (the full claim is false of the code): in one directory, remembering changes nothing. -/
theorem C174_cache_partial (canon : List Text → List Text) (base : Option (List Text)) (d : List Text) (xs : List P) :
    xunitRun canon base (xs.map fun p => (d, p)) [] = xs.map (xunit ⟨d, canon⟩ base) :=
  get_of_run xs [] (by intro k v h; simp [dictGet] at h)

example : xunitRun id (some [exPart "work"]) ([⟨false, [exPart "a.py"]⟩, ⟨false, [exPart "a.py"]⟩].map
      fun p => ([exPart "work", exPart "x"], p)) [] =
    [⟨false, [exPart "x", exPart "a.py"]⟩, ⟨false, [exPart "x", exPart "a.py"]⟩] := by decide +kernel

/-- C174, in full for the pytest plugin. -/
def C174_pytest_full : Prop := ∀ (fs : FS) (base : List Text) (p : P), (∀ q, fs.canon (fs.canon q) = fs.canon q) →
  fs.canon base = base → Leads fs base (pytest fs base p) p

/-- C174: relative paths are left as they are, also below the base. -/
theorem C174_pytest_counterexample : ¬ C174_pytest_full := by
  intro h
  have := h ⟨[exPart "work", exPart "x"], id⟩ [exPart "work"] ⟨false, [exPart "a.py"]⟩ (fun _ => rfl) rfl
  exact absurd this (by unfold Leads; decide +kernel)

/-- C174, partial (the full claim is false of the code): absolute paths, in the pytest plugin and in what `combine_results`
prints, lead to the file, and are relative exactly for files below the base. -/
theorem C174_pytest_partial (fs : FS) (base : List Text) (p : P) (hc : ∀ q, fs.canon (fs.canon q) = fs.canon q)
    (h : p.abs = true) :
    Leads fs base (pytest fs base p) p ∧ Leads fs base (combine fs base p) p ∧
    ((pytest fs base p).abs = false ↔ base <+: resolve fs p) ∧ ((combine fs base p).abs = false ↔ base <+: resolve fs p) := by
  simp only [pytest, combine, h, if_true]
  cases hr : relTo base (resolve fs p) with
  | some r =>
    have hb : base <+: resolve fs p := ⟨r, (relTo_some hr).symm⟩
    exact ⟨leads_rel hc hr, leads_rel hc hr, by simp [hb], by simp [hb]⟩
  | none =>
    have hn : ¬ base <+: resolve fs p := by
      rintro ⟨r, e⟩
      exact relTo_none hr r e.symm
    exact ⟨by simp [Leads, readFrom, resolve, hc], by simp [Leads, readFrom, full, h], by simp [hn], by simp [h, hn]⟩

example : pytest exSimFS [exPart "work"] ⟨true, [exPart "work", exPart "a.py"]⟩ = ⟨false, [exPart "a.py"]⟩ ∧
    combine exSimFS [exPart "work"] ⟨true, [exPart "lib", exPart "a.py"]⟩ = ⟨true, [exPart "lib", exPart "a.py"]⟩ := by
  decide +kernel

/-- C174, in full for texts (messages, captured output): in a text that is an absolute path the base is taken off if the
path is below it, and else nothing. -/
def C174_text_full : Prop := ∀ (b q : List Text), b ≠ [] → (∀ x ∈ b, Name x) → (∀ x ∈ q, Name x) →
  (∀ r, r ≠ [] → q = b ++ r → text b (strAbs q) = str ⟨false, r⟩) ∧ ((∀ r, q ≠ b ++ r) → text b (strAbs q) = strAbs q)

/-- C174: the base is taken off wherever its letters are: with the base /work, /home/work/a.py becomes /homea.py. -/
theorem C174_text_counterexample : ¬ C174_text_full := by
  intro h
  have := (h [exPart "work"] [exPart "home", exPart "work", exPart "a.py"] (by simp)
    (by unfold Name; decide +kernel) (by unfold Name; decide +kernel)).2 (by
      intro r e
      have : exPart "home" = exPart "work" := by simp at e; exact e.1
      exact absurd this (by decide +kernel))
  exact absurd this (by decide +kernel)

/-- C174, partial (the full claim is false of the code): in a path below the base the base is taken off if what follows does
not contain its letters, and a text that does not contain them is not changed. -/
theorem C174_text_partial (b : List Text) (hb : b ≠ []) :
    (∀ r, r ≠ [] → (∀ a c : Text, str ⟨false, r⟩ ≠ a ++ baseStr b ++ c) →
      text b (strAbs (b ++ r)) = str ⟨false, r⟩) ∧
    (∀ t : Text, (∀ a c : Text, t ≠ a ++ baseStr b ++ c) → text b t = t) := by
  have hne : baseStr b ≠ [] := by simp [baseStr]
  constructor
  · intro r hr h
    rw [strAbs_below b r hb hr, text, replace_hit _ _ hne]
    exact replace_free _ _ h
  · intro t h
    exact replace_free _ _ h

example : text [exPart "work"] (exPart "/work/t/a.py") = exPart "t/a.py" ∧
    strAbs [exPart "work", exPart "t", exPart "a.py"] = exPart "/work/t/a.py" := by decide +kernel

end Verif
