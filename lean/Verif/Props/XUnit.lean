import Verif.Lemmas.XUnit
/-!
# Result files (C60-C62)
-/
namespace Verif

open XUnit

/-! ## C60 -/

/-- **C60** Escaped text contains only characters that XML 1.0 allows. -/
theorem C60_legal (t : Text) : Legal (escape t) := escape_legal t

/-- **C60** Escaping works character by character: each is kept or replaced by `#x` and its code point, and no character
is replaced by text that shows another one. -/
theorem C60_per_character (t : Text) :
    escape t = t.flatMap (fun c => escape [c]) ∧
    (∀ c, escape [c] = [c] ∨ Visible c (escape [c])) ∧ (∀ c d, escape [c] = escape [d] → c = d) := by
  have h1 : ∀ c, escape [c] = if keeps c then [c] else escapeCode c := by
    intro c; simp [escape]
  have hlen : ∀ c, 4 ≤ (escapeCode c).length := by
    intro c
    obtain ⟨h, e, -, hl⟩ := (escapeCode_visible c).1
    rw [e]
    split at hl <;> simp [ofStr] <;> omega
  refine ⟨?_, ?_, ?_⟩
  · simp only [h1]; rfl
  · intro c
    rw [h1]
    split
    · exact .inl rfl
    · exact .inr (escapeCode_visible c).1
  · intro c d e
    rw [h1, h1] at e
    split at e <;> split at e
    · simpa using e
    · have := congrArg List.length e
      have := hlen d
      simp at *
      omega
    · have := congrArg List.length e
      have := hlen c
      simp at *
      omega
    · obtain ⟨h, e1, v1, -⟩ := (escapeCode_visible c).1
      obtain ⟨h', e2, v2, -⟩ := (escapeCode_visible d).1
      rw [e1, e2] at e
      have := List.append_cancel_left e
      subst this
      rw [v1] at v2
      simpa using v2

example : escape [104, 7, 0xD800, 10] = ofStr "h#x07#xD800\n".toList ∧ ¬ XmlChar 7 ∧ ¬ XmlChar 0xD800 := by
  refine ⟨by decide +kernel, by unfold XmlChar; omega, by unfold XmlChar; omega⟩

/-- The claim that legal characters are unchanged. -/
def C60_unchanged_full : Prop := ∀ c, XmlChar c → escape [c] = [c]

/-- It is false of the code: every character beyond U+FFFF is replaced, for instance U+1F600. -/
theorem C60_unchanged_counterexample : ¬ C60_unchanged_full := by
  intro h
  have := h 0x1F600 (by unfold XmlChar; omega)
  have hl := congrArg List.length this
  have : escape [0x1F600] = ofStr "#x1F600".toList := by decide +kernel
  rw [this] at hl
  simp [ofStr] at hl

/-- It holds up to U+FFFF, and a character is kept in no other case. (Missing for the full claim: characters from
U+10000 on.) -/
theorem C60_unchanged_partial (c : Nat) : escape [c] = [c] ↔ XmlChar c ∧ c ≤ 0xFFFF := by
  have h1 : escape [c] = if keeps c then [c] else escapeCode c := by simp [escape]
  rw [h1]
  constructor
  · intro e
    split at e
    · rename_i hk
      have := (keeps_iff c).1 hk
      exact ⟨keeps_xml hk, by omega⟩
    · obtain ⟨h, e', -, hl⟩ := (escapeCode_visible c).1
      have := congrArg List.length e
      rw [e'] at this
      split at hl <;> simp [ofStr] at this <;> omega
  · rintro ⟨hx, hc⟩
    rw [if_pos]
    rw [keeps_iff]
    unfold XmlChar at hx
    omega

example : XmlChar 0xE9 ∧ (0xE9 : Nat) ≤ 0xFFFF := ⟨by unfold XmlChar; omega, by omega⟩

/-- **C60** Captured output and tracebacks: only legal characters, only POSIX line ends, and a line end at the end. -/
theorem C60_normalized (K : Conf) (t : Text) :
    Legal (normalizeText K t) ∧ 13 ∉ normalizeText K t ∧
    (normalizeText K t = [] ∨ (normalizeText K t).getLast? = some 10) := by
  refine ⟨legal_normalize K t, ?_, ?_⟩
  · unfold normalizeText
    generalize relativePaths K t = u
    have hno : 13 ∉ posixNewlines u := by
      unfold posixNewlines
      split
      · generalize replaceText [13, 10] [10] u = v
        unfold replaceText
        induction v with
        | nil => simp [replaceGo]
        | cons c v ih =>
          unfold replaceGo
          split
          · simpa using ih
          · rename_i hp
            simp only [List.mem_cons, not_or]
            refine ⟨fun e => hp ?_, ih⟩
            subst e
            simp
      · assumption
    revert hno
    generalize posixNewlines u = v
    intro hno
    have hne : 13 ∉ ensureNewline v := by
      unfold ensureNewline
      split
      · simpa using hno
      · exact hno
    intro hm
    unfold escape at hm
    obtain ⟨c, hc, hm⟩ := List.mem_flatMap.1 hm
    split at hm
    · simp only [List.mem_singleton] at hm
      exact hne (hm ▸ hc)
    · obtain ⟨h, e, hv, -⟩ := (escapeCode_visible c).1
      rw [e] at hm
      rcases List.mem_append.1 hm with hm | hm
      · simp [ofStr] at hm
      · have : ∀ (t : Text) (acc v : Nat), hexValue t acc = some v → 13 ∉ t := by
          intro t
          induction t with
          | nil => intro _ _ _ h; cases h
          | cons d t ih =>
            intro acc v hv hm
            unfold hexValue at hv
            cases hd : hexDigit d with
            | none => rw [hd] at hv; cases hv
            | some k =>
              rw [hd] at hv
              rcases List.mem_cons.1 hm with rfl | hm
              · cases hd
              · exact ih _ _ hv hm
        exact this h 0 c hv hm
  · unfold normalizeText
    generalize posixNewlines (relativePaths K t) = v
    by_cases hv : v = []
    · subst hv; left; rfl
    · right
      have : ∃ w, ensureNewline v = w ++ [10] := by
        unfold ensureNewline
        split
        · exact ⟨v, rfl⟩
        · rename_i h
          have hl : v.getLast? = some 10 := by
            apply Classical.byContradiction
            intro h'
            exact h ⟨hv, h'⟩
          obtain ⟨ys, e⟩ := List.getLast?_eq_some_iff.1 hl
          exact ⟨ys, e⟩
      obtain ⟨w, e⟩ := this
      rw [e, escape_append, show escape [10] = [10] from by decide]
      simp

/-- **C60** Where paths are to be relative, the directory is taken out of the text everywhere: the text is cut at
occurrences of it, and the pieces, none of which contains another, are joined. -/
theorem C60_paths (K : Conf) (p t : Text) (hK : K.relativeTo = some p) (hp : p ≠ []) :
    ∃ pieces : List Text, t = (pieces.intersperse p).flatten ∧ relativePaths K t = pieces.flatten ∧
      ∀ x ∈ pieces, ¬ p <:+: x := by
  obtain ⟨q, qs, h1, h2, h3⟩ := replace_pieces p hp _ t (Nat.le_refl _)
  refine ⟨q :: qs, h1, ?_, h3⟩
  unfold relativePaths
  rw [hK]
  exact h2

example : relativePaths ⟨fun _ => [], fun _ => [], [], some (ofStr "/a/".toList), []⟩ (ofStr "in /a/b.py and /a/c.py".toList) =
    ofStr "in b.py and c.py".toList := by decide +kernel

/-- The claim that every text in a report is legal. -/
def C60_report_full : Prop :=
  ∀ (K : Conf) (nm : Text) (evs : List Ev), (∀ t, Legal (K.fmtTime t)) → Legal nm →
    ∀ doc ∈ documents K nm [] evs, ∀ t ∈ texts doc, Legal t

namespace XUnitEx

def K : Conf := ⟨fun _ => ofStr "0.000".toList, fun _ => ofStr "2025".toList, ofStr "h".toList, none, []⟩

def case (name mod_ : String) (s : Status) : Case :=
  ⟨ofStr name.toList, ofStr mod_.toList, s, 0, [], [], .nothing, []⟩

theorem time : ∀ t, Legal (K.fmtTime t) := fun _ => legal_ascii (by decide)

end XUnitEx

/-- It is false of the code: properties, such as the path of the test's file, are written as they are. -/
theorem C60_report_counterexample : ¬ C60_report_full := by
  intro h
  have := h XUnitEx.K [] [.add { XUnitEx.case "t" "m" .passed with props := [(ofStr "file".toList, [7])] }, .write]
    XUnitEx.time (fun c hc => by cases hc) _ (List.mem_singleton.2 rfl) [7] (by decide +kernel) 7 (by simp)
  unfold XmlChar at this
  omega

/-- If the properties and the names of attachments are legal, the claim holds: names, messages, exceptions, output,
host name and date can contain anything. (Missing for the full claim: properties and attachments.) -/
theorem C60_report_partial (K : Conf) (nm : Text) (evs : List Ev) (ht : ∀ t, Legal (K.fmtTime t)) (hn : Legal nm)
    (ha : ∀ a ∈ K.attachments, Legal a) (hp : ∀ c, Ev.add c ∈ evs → ∀ x ∈ c.props, Legal x.1 ∧ Legal x.2) :
    ∀ doc ∈ documents K nm [] evs, ∀ t ∈ texts doc, Legal t :=
  legal_documents ⟨ht, ha⟩ hn evs [] hp (fun _ h => by cases h)

example : (∀ a ∈ XUnitEx.K.attachments, Legal a) ∧
    (documents XUnitEx.K [] [] [.add { XUnitEx.case "t" "m" .failed with reason := .msg [7, 65] }, .write]).map
      (fun d => decide (ofStr "#x07A".toList ∈ texts d)) = [true] := by
  refine ⟨?_, by decide +kernel⟩
  intro a h; cases h

/-! ## C61 -/

/-- **C61** In every suite of every document written, the counters are the numbers of the test cases it contains. -/
theorem C61_counters (K : Conf) (nm : Text) (evs : List Ev) :
    ∀ doc ∈ documents K nm [] evs, ∀ s ∈ doc.children,
      Number s "tests" (s.findall "testcase").length ∧
      Number s "failures" ((s.findall "testcase").countP (·.has "failure")) ∧
      Number s "errors" ((s.findall "testcase").countP (·.has "error")) ∧
      Number s "skipped" ((s.findall "testcase").countP (·.has "skipped")) := by
  obtain ⟨hl, hd⟩ := documents_ind (K := K) (nm := nm) (P := fun _ doc => ∀ s ∈ doc.children,
      Number s "tests" (s.findall "testcase").length ∧
      Number s "failures" ((s.findall "testcase").countP (·.has "failure")) ∧
      Number s "errors" ((s.findall "testcase").countP (·.has "error")) ∧
      Number s "skipped" ((s.findall "testcase").countP (·.has "skipped"))) (by
    intro cs r hr e he
    obtain ⟨n, s, rfl, hg⟩ := write_children hr e he
    obtain ⟨u1, u2, u3, u4⟩ := update_attrs K s
    have hc : (update K s).element.children = (own n cs).map (caseElem K) := hg.children
    have hf : (update K s).element.findall "testcase" = (own n cs).map (caseElem K) := by
      unfold Elem.findall
      rw [hc]
      refine List.filter_eq_self.2 fun e he => ?_
      obtain ⟨c, -, rfl⟩ := List.mem_map.1 he
      rfl
    unfold Number
    rw [u1, u2, u3, u4, hf, List.length_map, hg.tests, hg.failures, hg.errors, hg.skipped]
    simp only [List.countP_map, Function.comp_def, caseElem_failure, caseElem_error, caseElem_skipped]
    simp) evs [] [] (rep_nil K)
  intro doc hdoc
  obtain ⟨k, hk, rfl⟩ := List.getElem_of_mem hdoc
  exact hd k _ ((added [] evs)[k]'(hl ▸ hk)) (List.getElem?_eq_getElem hk) (List.getElem?_eq_getElem (hl ▸ hk))

/-- **C61** Every document written contains exactly the test cases added before: one suite per module, in the order of
their first test; in it the module's test cases in the order in which they were added, each with its name and verdict. -/
theorem C61_cases (K : Conf) (nm : Text) (evs : List Ev) :
    (documents K nm [] evs).length = (added [] evs).length ∧
    ∀ (k : Nat) doc cs, (documents K nm [] evs)[k]? = some doc → (added [] evs)[k]? = some cs →
      (doc.children.map fun s => (s.tag, s.get "name",
          s.children.map fun e => (e.tag, e.get "classname", e.get "name", verdict e))) =
        (firsts (cs.map suiteOf)).map fun n => ("testsuite", some (escape n),
          (cs.filter fun c => suiteOf c = n).map fun c =>
            ("testcase", some (escape c.classname), some (escape c.name), expected c.status)) := by
  refine documents_ind (P := fun cs doc =>
      (doc.children.map fun s => (s.tag, s.get "name",
          s.children.map fun e => (e.tag, e.get "classname", e.get "name", verdict e))) =
        (firsts (cs.map suiteOf)).map fun n => ("testsuite", some (escape n),
          (cs.filter fun c => suiteOf c = n).map fun c =>
            ("testcase", some (escape c.classname), some (escape c.name), expected c.status)))
    ?_ evs [] [] (rep_nil K)
  intro cs r hr
  simp only [write, root, Elem.children]
  rw [← hr.keys, List.map_map, List.map_map, List.map_map]
  refine List.map_congr_left fun x hx => ?_
  obtain ⟨n, s⟩ := x
  have hg := good_update (hr.good n s hx)
  have hc : (update K s).element.children = (own n cs).map (caseElem K) := hg.children
  have hn : (update K s).element.get "name" = some (escape n) := hg.name
  have ht : (update K s).element.tag = "testsuite" := hg.tag
  show ((update K s).element.tag, (update K s).element.get "name", (update K s).element.children.map _) = _
  rw [ht, hn, hc, List.map_map]
  congr 2
  refine List.map_congr_left fun c _ => ?_
  have hv : verdict (caseElem K c) = expected c.status := by
    unfold verdict
    rw [caseElem_failure, caseElem_error, caseElem_skipped]
    cases c.status <;> rfl
  simp only [Function.comp_apply, hv]
  rfl

/-- **C61** The numbers `get_results` finds in a document are the number of test cases added, and the number of those that
failed or could not be started. -/
theorem C61_get_results (K : Conf) (nm : Text) (evs : List Ev) (k : Nat) (doc : Elem) (cs : List Case)
    (h1 : (documents K nm [] evs)[k]? = some doc) (h2 : (added [] evs)[k]? = some cs) :
    getResults doc = .ok (cs.length, cs.countP fun c => c.status = .failed ∨ c.status = .error) := by
  refine (documents_ind (P := fun cs doc =>
    getResults doc = .ok (cs.length, cs.countP fun c => c.status = .failed ∨ c.status = .error))
    ?_ evs [] [] (rep_nil K)).2 k doc cs h1 h2
  clear h1 h2
  intro cs r hr
  have hfa : (write K nm r).2.findall "testsuite" = r.map fun x => (update K x.2).element := by
    unfold Elem.findall
    have : (write K nm r).2.children = r.map fun x => (update K x.2).element := by
      simp only [write, root, Elem.children, List.map_map]; rfl
    rw [this]
    refine List.filter_eq_self.2 fun e he => ?_
    obtain ⟨⟨n, s⟩, hx, rfl⟩ := List.mem_map.1 he
    exact decide_eq_true (good_update (hr.good n s hx)).tag
  have hloop : ∀ (l : Reporter), (∀ x ∈ l, Good K cs x.1 x.2) → ∀ t f,
      resultsLoop (l.map fun x => (update K x.2).element) t f =
        .ok (t + (l.map fun x => (own x.1 cs).length).sum,
          f + (l.map fun x => (own x.1 cs).countP fun c => c.status = .failed ∨ c.status = .error).sum) := by
    intro l
    induction l with
    | nil => intro _ t f; rfl
    | cons x l ih =>
      intro hl t f
      have hg := hl x List.mem_cons_self
      obtain ⟨u1, u2, -, u4⟩ := update_attrs K x.2
      have i1 : intAttr (update K x.2).element "tests" = .ok x.2.tests := by
        unfold intAttr; rw [u4]; exact intText_decText _
      have i2 : intAttr (update K x.2).element "failures" = .ok x.2.failures := by
        unfold intAttr; rw [u2]; exact intText_decText _
      have i3 : intAttr (update K x.2).element "errors" = .ok x.2.errors := by
        unfold intAttr; rw [u1]; exact intText_decText _
      simp only [List.map_cons, resultsLoop, i1, i2, i3]
      rw [ih fun x hx => hl x (List.mem_cons_of_mem _ hx)]
      rw [hg.tests, hg.failures, hg.errors]
      have hsum : ∀ m : List Case, (m.countP fun c => c.status = .failed ∨ c.status = .error) =
          (m.countP fun c => c.status = .failed) + m.countP fun c => c.status = .error := by
        intro m
        induction m with
        | nil => rfl
        | cons c m ihm =>
          simp only [List.countP_cons, ihm]
          cases c.status <;> simp <;> omega
      rw [List.sum_cons, List.sum_cons, hsum]
      congr 2 <;> omega
  unfold getResults
  rw [hfa, hloop r (fun x hx => hr.good x.1 x.2 hx)]
  have hpart : ∀ (ns : List Text) (p : Case → Bool), ns.Nodup → (∀ c ∈ cs, suiteOf c ∈ ns) →
      (ns.map fun n => (own n cs).countP p).sum = cs.countP p := by
    intro ns p hnd hall
    clear hloop hfa hr
    induction cs with
    | nil => unfold own; simp; induction ns with
      | nil => rfl
      | cons n ns ih => simp at *; exact ih hnd.2
    | cons c cs ih =>
      have ih' := ih fun c' hc' => hall c' (List.mem_cons_of_mem _ hc')
      have hc := hall c List.mem_cons_self
      have hstep : ∀ (ns : List Text), ns.Nodup → (ns.map fun n => (own n (c :: cs)).countP p).sum =
          (ns.map fun n => (own n cs).countP p).sum + if suiteOf c ∈ ns then (if p c then 1 else 0) else 0 := by
        intro ns
        induction ns with
        | nil => intro _; rfl
        | cons n ns ihn =>
          intro hnd
          rw [List.nodup_cons] at hnd
          rw [List.map_cons, List.sum_cons, ihn hnd.2, List.map_cons, List.sum_cons]
          have hown : (own n (c :: cs)).countP p = (own n cs).countP p +
              if suiteOf c = n then (if p c then 1 else 0) else 0 := by
            unfold own
            by_cases e : suiteOf c = n
            · rw [List.filter_cons_of_pos (by simpa using e), List.countP_cons, if_pos e]
            · rw [List.filter_cons_of_neg (by simpa using e), if_neg e]; rfl
          rw [hown]
          by_cases e : suiteOf c = n
          · have hn : suiteOf c ∉ ns := e ▸ hnd.1
            have hn' : suiteOf c ∈ n :: ns := by rw [e]; exact List.mem_cons_self
            simp only [e ▸ hn, hn', e, if_true, if_false, List.mem_cons, true_or]
            omega
          · by_cases hm : suiteOf c ∈ ns
            · simp only [e, hm, List.mem_cons, if_true, if_false, or_true]; omega
            · simp only [e, hm, List.mem_cons, if_false, or_false]; omega
      rw [hstep ns hnd, ih', if_pos hc, List.countP_cons]
  have hnd := rep_nodup hr
  have hall : ∀ c ∈ cs, suiteOf c ∈ r.map (·.1) := by
    intro c hc
    rw [hr.keys, (firsts_facts _).2]
    exact List.mem_map_of_mem hc
  have e1 := hpart (r.map (·.1)) (fun _ => true) hnd hall
  have e2 := hpart (r.map (·.1)) (fun c => c.status = .failed ∨ c.status = .error) hnd hall
  simp only [List.countP_true, List.map_map] at e1
  rw [List.map_map] at e2
  simp only [Nat.zero_add]
  rw [← e1, ← e2]
  rfl

example : (documents XUnitEx.K [] [] [.add (XUnitEx.case "t" "m" .failed), .add (XUnitEx.case "u" "" .skipped), .write,
      .add (XUnitEx.case "v" "m" .error), .add (XUnitEx.case "w" "cocotb" .xfailed), .write]).map getResults =
    [.ok (2, 1), .ok (4, 2)] := by decide +kernel

/-! ## C62 -/

/-- **C62** The combined file has one suite for each name of a suite in the files, in the order of their first appearance,
and in it the contents of all suites of that name in order: every test case is kept exactly once, with its verdict. -/
theorem C62_cases (nm : Text) (docs : List Elem) (h : ∀ d ∈ docs, Flat d) :
    ((combine nm docs).1.children.map fun s => (s.tag, s.get "name", s.children)) =
      (firsts ((docs.flatMap Elem.children).map fun s => s.get "name")).map fun n =>
        ("testsuite", n, ((docs.flatMap Elem.children).filter fun s => s.get "name" = n).flatMap Elem.children) := by
  show ((mergeAll docs).map _) = _
  rw [mergeAll_eq h, mergeL_eq, List.map_map]
  refine List.map_congr_left fun n hn => ?_
  have hne := same_ne.2 (((firsts_facts _).2 n).1 hn)
  have hs : ∀ e ∈ same n (docs.flatMap Elem.children), e.get "name" = n ∧ e.tag = "testsuite" := by
    intro e he
    obtain ⟨h1, h2⟩ := List.mem_filter.1 he
    obtain ⟨d, hd, he'⟩ := List.mem_flatMap.1 h1
    exact ⟨of_decide_eq_true h2, ((h d hd).2 e he').1⟩
  show ((joined (same n (docs.flatMap Elem.children))).tag, (joined (same n (docs.flatMap Elem.children))).get "name",
    (joined (same n (docs.flatMap Elem.children))).children) = _
  show _ = ("testsuite", n, (same n (docs.flatMap Elem.children)).flatMap Elem.children)
  generalize same n (docs.flatMap Elem.children) = l at hne hs
  cases l with
  | nil => exact absurd rfl hne
  | cons e es =>
    have := hs e List.mem_cons_self
    show (e.tag, e.get "name", e.children ++ es.flatMap Elem.children) = _
    rw [this.1, this.2]
    rfl

/-- **C62** The exit code is 1 if a test case in one of the files failed or had an error, and 0 otherwise. -/
theorem C62_exit (nm : Text) (docs : List Elem) (h : ∀ d ∈ docs, Flat d) :
    (combine nm docs).2 = 1 ∧ (∃ d ∈ docs, ∃ s ∈ d.children, ∃ c ∈ Elem.allOf s.children,
        c.tag = "testcase" ∧ (c.has "failure" ∨ c.has "error")) ∨
    (combine nm docs).2 = 0 ∧ ¬ ∃ d ∈ docs, ∃ s ∈ d.children, ∃ c ∈ Elem.allOf s.children,
        c.tag = "testcase" ∧ (c.has "failure" ∨ c.has "error") := by
  have hc := C62_cases nm docs h
  have key : (((combine nm docs).1.findall "testsuite").any fun ts => (ts.iter "testcase").any failing) = true ↔
      ∃ d ∈ docs, ∃ s ∈ d.children, ∃ c ∈ Elem.allOf s.children,
        c.tag = "testcase" ∧ (c.has "failure" ∨ c.has "error") := by
    have hiter : ∀ e : Elem, e.tag = "testsuite" → e.iter "testcase" = (Elem.allOf e.children).filter fun c => c.tag = "testcase" := by
      rintro ⟨t, a, x, cs⟩ ht
      simp only [Elem.iter, Elem.all, Elem.children]
      rw [List.filter_cons_of_neg]
      simp only [Elem.tag] at ht ⊢
      rw [ht]; simp
    have hfail : ∀ c, failing c = true ↔ (c.has "failure" = true ∨ c.has "error" = true) := by
      intro c; unfold failing; rw [Bool.or_eq_true]
    simp only [List.any_eq_true, Elem.findall, List.mem_filter, decide_eq_true_eq]
    constructor
    · rintro ⟨s, ⟨hs, ht⟩, c, hcm, hf⟩
      rw [hiter s ht] at hcm
      obtain ⟨hcm, hct⟩ := List.mem_filter.1 hcm
      have hm : (s.tag, s.get "name", s.children) ∈
          (combine nm docs).1.children.map fun s => (s.tag, s.get "name", s.children) := List.mem_map_of_mem hs
      rw [hc] at hm
      obtain ⟨n, -, e⟩ := List.mem_map.1 hm
      simp only [Prod.mk.injEq] at e
      rw [← e.2.2, allOf_eq] at hcm
      obtain ⟨x, hx, hcx⟩ := List.mem_flatMap.1 hcm
      obtain ⟨s', hs', hx⟩ := List.mem_flatMap.1 hx
      obtain ⟨hs', -⟩ := List.mem_filter.1 hs'
      obtain ⟨d, hd, hs'⟩ := List.mem_flatMap.1 hs'
      exact ⟨d, hd, s', hs', c, by rw [allOf_eq]; exact List.mem_flatMap.2 ⟨x, hx, hcx⟩, by simpa using hct, (hfail c).1 hf⟩
    · rintro ⟨d, hd, s, hs, c, hcm, hct, hf⟩
      have hn : s.get "name" ∈ firsts ((docs.flatMap Elem.children).map fun s => s.get "name") :=
        ((firsts_facts _).2 _).2 (List.mem_map_of_mem (List.mem_flatMap.2 ⟨d, hd, hs⟩))
      have hm := List.mem_map_of_mem (f := fun n => ("testsuite", n,
        ((docs.flatMap Elem.children).filter fun s => s.get "name" = n).flatMap Elem.children)) hn
      rw [← hc] at hm
      obtain ⟨u, hu, e⟩ := List.mem_map.1 hm
      simp only [Prod.mk.injEq] at e
      refine ⟨u, ⟨hu, e.1⟩, c, ?_, (hfail c).2 hf⟩
      rw [hiter u e.1]
      refine List.mem_filter.2 ⟨?_, by simpa using hct⟩
      rw [e.2.2, allOf_eq]
      rw [allOf_eq] at hcm
      obtain ⟨x, hx, hcx⟩ := List.mem_flatMap.1 hcm
      refine List.mem_flatMap.2 ⟨x, List.mem_flatMap.2 ⟨s, List.mem_filter.2 ⟨List.mem_flatMap.2 ⟨d, hd, hs⟩, ?_⟩, hx⟩, hcx⟩
      simp
  cases hb : (((combine nm docs).1.findall "testsuite").any fun ts => (ts.iter "testcase").any failing) with
  | true =>
    refine .inl ⟨?_, key.1 hb⟩
    exact if_pos hb
  | false =>
    refine .inr ⟨?_, fun hh => ?_⟩
    · exact if_neg (by intro e; exact absurd (e.symm.trans hb) (by simp))
    · rw [key.2 hh] at hb; cases hb

/-- The claim about `get_results` on the combined file: it reports the sums. -/
def C62_totals_full : Prop :=
  ∀ (nm : Text) (docs : List Elem) (rs : List (Nat × Nat)), (∀ d ∈ docs, Flat d) →
    docs.map getResults = rs.map .ok → getResults (combine nm docs).1 = .ok ((rs.map (·.1)).sum, (rs.map (·.2)).sum)

/-- Files written by the reporter have no nested suites. -/
theorem C62_flat (K : Conf) (nm : Text) (evs : List Ev) : ∀ doc ∈ documents K nm [] evs, Flat doc := by
  obtain ⟨hl, hd⟩ := documents_ind (K := K) (nm := nm) (P := fun _ doc => Flat doc) (by
    intro cs r hr
    refine ⟨show ("testsuites" : String) ≠ "testsuite" by decide, ?_⟩
    intro e he
    obtain ⟨n, s, rfl, hg⟩ := write_children hr e he
    refine ⟨hg.tag, ?_⟩
    have hc : (update K s).element.children = (own n cs).map (caseElem K) := hg.children
    rw [hc, allOf_eq]
    intro x hx
    obtain ⟨y, hy, hx⟩ := List.mem_flatMap.1 hx
    obtain ⟨c, -, rfl⟩ := List.mem_map.1 hy
    have hsimple : ∀ n r, n ≠ "testsuite" → ∀ x ∈ (simple K n r).all, x.tag ≠ "testsuite" := by
      intro n r hn x hx
      have : (simple K n r).all = [simple K n r] := by
        unfold simple
        cases r with
        | nothing => rfl
        | msg t => simp only; split <;> rfl
        | exc a b c => rfl
      rw [this] at hx
      rw [List.mem_singleton.1 hx, simple_tag]
      exact hn
    simp only [caseElem, Elem.all, List.mem_cons, allOf_eq] at hx
    rcases hx with rfl | hx
    · simp [Elem.tag]
    · obtain ⟨z, hz, hx⟩ := List.mem_flatMap.1 hx
      simp only [List.mem_append, List.mem_singleton] at hz
      rcases hz with ((hz | rfl) | hz) | hz
      · unfold statusElems at hz
        split at hz <;> simp at hz <;> subst hz <;> exact hsimple _ _ (by decide) x hx
      · simp only [properties, Elem.all, List.mem_cons, allOf_eq] at hx
        rcases hx with rfl | hx
        · simp [Elem.tag]
        · obtain ⟨w, hw, hx⟩ := List.mem_flatMap.1 hx
          rcases List.mem_append.1 hw with hw | hw
          · obtain ⟨q, -, rfl⟩ := List.mem_map.1 hw
            simp only [Elem.all, Elem.allOf, List.mem_singleton] at hx
            subst hx
            simp [Elem.tag]
          · split at hw
            · cases hw
            · obtain ⟨q, -, rfl⟩ := List.mem_map.1 hw
              simp only [Elem.all, Elem.allOf, List.mem_singleton] at hx
              subst hx
              simp [Elem.tag]
      · split at hz
        · simp only [List.mem_singleton] at hz
          subst hz
          simp only [Elem.all, Elem.allOf, List.mem_singleton] at hx
          subst hx
          simp [Elem.tag]
        · cases hz
      · split at hz
        · simp only [List.mem_singleton] at hz
          subst hz
          simp only [Elem.all, Elem.allOf, List.mem_singleton] at hx
          subst hx
          simp [Elem.tag]
        · cases hz) evs [] [] (rep_nil K)
  intro doc hdoc
  obtain ⟨k, hk, rfl⟩ := List.getElem_of_mem hdoc
  exact hd k _ ((added [] evs)[k]'(hl ▸ hk)) (List.getElem?_eq_getElem hk) (List.getElem?_eq_getElem (hl ▸ hk))

/-- It is false of the code: when two runs of the same module are combined, the counters of the second are lost, so its
failure is not counted although the combined file contains it. -/
theorem C62_totals_counterexample : ¬ C62_totals_full := by
  intro h
  have := h [] (documents XUnitEx.K [] [] [.add (XUnitEx.case "t" "m" .passed), .write] ++
      documents XUnitEx.K [] [] [.add (XUnitEx.case "t" "m" .failed), .write]) [(1, 0), (1, 1)] (by
    intro d hd
    rcases List.mem_append.1 hd with hd | hd
    · exact C62_flat _ _ _ d hd
    · exact C62_flat _ _ _ d hd) (by decide +kernel)
  revert this
  decide +kernel

/-- If no two suites have the same name, the claim holds. (Missing for the full claim: suites that are merged.) -/
theorem C62_totals_partial (nm : Text) (docs : List Elem) (rs : List (Nat × Nat)) (h : ∀ d ∈ docs, Flat d)
    (hn : ((docs.flatMap Elem.children).map fun s => s.get "name").Nodup) (hr : docs.map getResults = rs.map .ok) :
    getResults (combine nm docs).1 = .ok ((rs.map (·.1)).sum, (rs.map (·.2)).sum) := by
  have hm : mergeAll docs = docs.flatMap Elem.children := by
    rw [mergeAll_eq h, mergeL_eq]
    generalize docs.flatMap Elem.children = L at hn
    have hn' : (L.map XUnit.nm).Nodup := hn
    rw [firsts_nodup _ hn', List.map_map]
    refine (List.map_congr_left fun e he => ?_).trans (List.map_id _)
    show joined (same (XUnit.nm e) L) = e
    have : same (XUnit.nm e) L = [e] := by
      clear hn
      induction L with
      | nil => cases he
      | cons x L ih =>
        rw [List.map_cons, List.nodup_cons] at hn'
        unfold same
        rcases List.mem_cons.1 he with rfl | he
        · rw [List.filter_cons_of_pos (by simp), List.filter_eq_nil_iff.2]
          intro y hy e'
          exact hn'.1 (by rw [← of_decide_eq_true e']; exact List.mem_map_of_mem hy)
        · rw [List.filter_cons_of_neg]
          · exact ih hn'.2 he
          · intro e'
            exact hn'.1 (by rw [of_decide_eq_true e']; exact List.mem_map_of_mem he)
    rw [this, joined_one]
  have hf : ∀ d, Flat d → d.findall "testsuite" = d.children := by
    intro d hd
    exact List.filter_eq_self.2 fun e he => decide_eq_true (hd.2 e he).1
  have hf' : (combine nm docs).1.findall "testsuite" = docs.flatMap Elem.children := by
    have : (combine nm docs).1.children = docs.flatMap Elem.children := hm
    unfold Elem.findall
    rw [this]
    refine List.filter_eq_self.2 fun e he => ?_
    obtain ⟨d, hd, he⟩ := List.mem_flatMap.1 he
    exact decide_eq_true ((h d hd).2 e he).1
  unfold getResults at hr ⊢
  rw [hf']
  clear hn hm hf'
  induction docs generalizing rs with
  | nil =>
    cases rs with
    | nil => rfl
    | cons _ _ => simp at hr
  | cons d docs ih =>
    cases rs with
    | nil => simp at hr
    | cons p rs =>
      obtain ⟨t, f⟩ := p
      simp only [List.map_cons, List.cons.injEq] at hr
      rw [List.flatMap_cons, resultsLoop_append]
      have h1 := hr.1
      rw [hf d (h d List.mem_cons_self)] at h1
      rw [h1]
      simp only
      rw [resultsLoop_shift, ih rs (fun d hd => h d (List.mem_cons_of_mem _ hd)) hr.2]
      rfl

example :
    let docs := documents XUnitEx.K [] [] [.add (XUnitEx.case "t" "m" .passed), .add (XUnitEx.case "t" "n" .failed), .write] ++
      documents XUnitEx.K [] [] [.add (XUnitEx.case "t" "o" .failed), .write]
    (∀ d ∈ docs, Flat d) ∧ ((docs.flatMap Elem.children).map fun s => s.get "name").Nodup ∧
    docs.map getResults = [.ok (2, 1), .ok (1, 1)] ∧ getResults (combine [] docs).1 = .ok (3, 2) ∧
    (combine [] docs).2 = 1 := by
  refine ⟨?_, by decide +kernel, by decide +kernel, by decide +kernel, by decide +kernel⟩
  intro d hd
  rcases List.mem_append.1 hd with hd | hd
  · exact C62_flat _ _ _ d hd
  · exact C62_flat _ _ _ d hd

end Verif
