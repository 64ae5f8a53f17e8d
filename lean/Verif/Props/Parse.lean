import Verif.Lemmas.ReadDoc

/-!
# Parsing (C29-C33, C59)

`fileEvents dt root` are the calls expat makes for a well-formed file with an optional document type
and the root element `root`; text comes in pieces.  `init enc` is a new parser.  `extra` are the
names found behind the attribute tables of `<name>` and `<description>`, which have no end
(`C29_false_table`).
-/

namespace Comps.Props
open Comps Comps.Spec Comps.Obj Comps.Text Comps.Parse
open Comps.Xml (Defaults)

/-! ## C59 -/

/-- The doctype of a document read from a file. -/
def doctypeOf (dt : DocType) : Option CStr × Option CStr × Option CStr :=
  match dt with
  | some x => (some ⟨some x.2.1⟩, some ⟨x.2.2.1⟩, some ⟨x.2.2.2⟩)
  | none => (some ⟨some b!"comps"⟩, some ⟨some b!"comps.dtd"⟩,
      some ⟨some b!"-//Red Hat, Inc.//DTD Comps info//EN"⟩)

/-- Result of a parse without errors that logged messages with these codes. -/
def cleanResult (codes : List Nat) : Int := if codes.isEmpty then 0 else 1

theorem result_clean {s : Parsed} (h : s.fatal = false) :
    resultCode s = cleanResult (s.log.map (·.code)) := by
  unfold resultCode cleanResult
  rw [h]
  cases s.log <;> rfl

theorem make_doctype (e : CStr) :
    ((Doc.make (some e)).doctypeName, (Doc.make (some e)).doctypeSysid,
      (Doc.make (some e)).doctypePubid) = doctypeOf none := rfl

/-- What the parse of a well-formed file leaves. -/
structure ParsedAs (lt : UInt8 → UInt8 → Bool) (enc : Option Bytes) (dt : DocType) (c : DocContent)
    (codes : List Nat) (res : Int × Parsed) : Prop where
  result : res.1 = cleanResult codes
  stack : res.2.stack = []
  log : res.2.log.map (·.code) = codes
  doc : ∃ d, res.2.doc = .live d ∧ DocBuilt lt d ∧ Shows lt d c ∧ d.encoding = some ⟨enc⟩ ∧
    (d.doctypeName, d.doctypeSysid, d.doctypePubid) = doctypeOf dt

theorem parsed_of {r : Reading} {enc : Option Bytes} {dt : DocType} {p q : Pos}
    {attrs : List (Bytes × Bytes)} {kids : List XNode} (ha : Fits r attrs)
    (hs : DocSafe (Fits r) (fun a k => r.look a k ≠ none) kids) :
    (∀ cs : List Chunk, (∀ c ∈ cs, c.error = none) →
      cs.flatMap (·.events) = fileEvents dt (.elem p b!"comps" attrs kids q) →
      ∃ res, parseFile r.ctx (init enc) (some cs) = .ok res ∧
        ParsedAs r.lt enc dt (readDoc r attrs kids).1 (readDoc r attrs kids).2 res) ∧
    (∃ res, parseStr r.ctx (init enc) ⟨fileEvents dt (.elem p b!"comps" attrs kids q), none⟩ =
        .ok res ∧
        ParsedAs r.lt enc dt (readDoc r attrs kids).1 (readDoc r attrs kids).2 res) := by
  obtain ⟨s, h1, h2, h3, h4, h5, h6, h7, h8⟩ := file_ok r enc dt p q ha hs
  obtain ⟨s', d, k1, k2, k3, k4, k5, k6, k7, k8, k9⟩ := finish_ok h5 h6 h7 h8
  have key : ParsedAs r.lt enc dt (readDoc r attrs kids).1 (readDoc r attrs kids).2
      (resultCode s', s') := by
    refine ⟨?_, k2.trans h2.stack, by rw [k3, h4], d, k5, k6, ?_, k8, ?_⟩
    · show resultCode s' = _
      rw [result_clean (k4.trans h3), k3, h4]
    · rw [← k7]; exact shows_content (docBuilt_inv k6)
    · rw [k9]
      cases dt <;> rfl
  refine ⟨fun cs hc he => ⟨(resultCode s', s'), ?_, key⟩, (resultCode s', s'), ?_, key⟩
  · have hr : reinit (init enc) = .ok (init enc) := rfl
    simp only [parseFile, hr, bind, Except.bind]
    rw [feeds_steps _ hc, he, h1]
    simp only [k1]
  · simp only [parseStr, feed, bind, Except.bind, h1, k1]

/-- **C59.**  A file with root `<comps>` is read as `readDoc` says: the content of the document, the
messages in order, the document type, the encoding, and the result code, however the file is cut into
pieces for `comps_parse_file`, and by `comps_parse_str`. -/
theorem C59_parsed (lt : UInt8 → UInt8 → Bool) (opts : Defaults) (extra : Bytes → List Bytes)
    (enc : Option Bytes) (dt : DocType) (p q : Pos) (attrs : List (Bytes × Bytes))
    (kids : List XNode) (ha : AttrsOk attrs) (hs : DocSafe AttrsOk Has kids) :
    let r := Reading.plain lt opts extra
    (∀ cs : List Chunk, (∀ c ∈ cs, c.error = none) →
      cs.flatMap (·.events) = fileEvents dt (.elem p b!"comps" attrs kids q) →
      ∃ res, parseFile r.ctx (init enc) (some cs) = .ok res ∧
        ParsedAs lt enc dt (readDoc r attrs kids).1 (readDoc r attrs kids).2 res) ∧
    (∃ res, parseStr r.ctx (init enc) ⟨fileEvents dt (.elem p b!"comps" attrs kids q), none⟩ =
        .ok res ∧
        ParsedAs lt enc dt (readDoc r attrs kids).1 (readDoc r attrs kids).2 res) :=
  parsed_of (fits_plain ha) (safe_mono (fun _ h => fits_plain h) (fun _ _ h => h) hs)

/-! ### a file -/

/-- An element without positions. -/
def el (n : Bytes) (attrs : List (Bytes × Bytes)) (kids : List XNode) : XNode :=
  .elem ⟨1, 1⟩ n attrs kids ⟨1, 1⟩
/-- A piece of text. -/
def tx (s : Bytes) : XNode := .text ⟨1, 1⟩ s

/-- The content of a file: a group with a package, an element that is not allowed, a language
pack. -/
def sampleKids : List XNode :=
  [el b!"group" [] [
    el b!"id" [] [tx b!"co", tx b!"re"], el b!"uservisible" [] [tx b!"false"],
    el b!"packagelist" [] [el b!"packagereq" [(b!"type", b!"optional")] [tx b!"bash"]]],
   tx b!" ", el b!"junk" [] [el b!"group" [] []],
   el b!"langpacks" [] [el b!"match" [(b!"name", b!"a"), (b!"install", b!"a-%s")] []]]

theorem sample_safe : DocSafe AttrsOk Has sampleKids where
  tidy := by
    simp only [sampleKids, el, tx, AllTidy, XNode.Tidy, and_true, true_and]
    have h0 : AttrsOk [] := ⟨by simp, by simp⟩
    have h1 : AttrsOk [(b!"type", b!"optional")] := ⟨by simp, by simp⟩
    have h2 : AttrsOk [(b!"name", b!"a"), (b!"install", b!"a-%s")] := by
      refine ⟨by simp, ?_⟩
      simp only [List.pairwise_cons, List.mem_cons, List.not_mem_nil, or_false, forall_eq,
        List.Pairwise.nil, and_true, false_implies, implies_true]
      refine ⟨by decide, ?_⟩
      rintro ⟨x, xs, h⟩
      revert h; simp
    simp [h0, h1, h2]
  groups := by
    intro p attrs kids q h
    simp [sampleKids, el, tx] at h
    obtain ⟨-, -, rfl, -⟩ := h
    refine ⟨?_, ?_, ?_⟩
    · intro p attrs kids q h; simp at h
    · intro p attrs kids q h
      simp at h
      obtain ⟨-, -, rfl, -⟩ := h
      decide
    · intro p attrs kids q h; simp at h
  categories := by intro p attrs kids q h; simp [sampleKids, el, tx] at h
  environments := by intro p attrs kids q h; simp [sampleKids, el, tx] at h
  langpacks := by
    intro p attrs kids q h
    simp [sampleKids, el, tx] at h
    obtain ⟨-, -, rfl, -⟩ := h
    intro p attrs kids q h
    simp at h
    obtain ⟨-, rfl, -⟩ := h
    unfold Has
    decide
  blacklist := by intro p attrs kids q h; simp [sampleKids, el, tx] at h
  whiteout := by intro p attrs kids q h; simp [sampleKids, el, tx] at h

/-- The order of `char` in the examples. -/
abbrev byteLt : UInt8 → UInt8 → Bool := fun a b => a < b

/-- The reading of the examples. -/
abbrev plainReading : Reading := .plain byteLt Defaults.standard (fun _ => [])

/-- The sample is read: messages are the misplaced element, the element in it, and the missing name
and description of the group. -/
example : ∃ res, parseStr plainReading.ctx (init none)
      ⟨fileEvents none (el b!"comps" [] sampleKids), none⟩ = .ok res ∧ res.1 = 1 ∧
    res.2.log.map (·.code) = [21, 21, 16, 16] := by
  obtain ⟨res, h1, h2⟩ := (C59_parsed byteLt Defaults.standard (fun _ => []) none none ⟨1, 1⟩ ⟨1, 1⟩ []
    sampleKids ⟨by simp, by simp⟩ sample_safe).2
  have hc : (readDoc plainReading [] sampleKids).2 = [21, 21, 16, 16] := by decide +kernel
  refine ⟨res, h1, ?_, ?_⟩
  · rw [h2.result, hc]; rfl
  · rw [h2.log, hc]

/-! ## C29 -/

/-- The fault of a run. -/
def faultOf (r : Res Parsed) : Option Fault :=
  match r with
  | .error f => some f
  | .ok _ => none

/-- A file that is read safely.  All attributes are allowed; the conditions on the content are those
the code relies on. -/
def FileSafe (root : XNode) : Prop :=
  (∃ p attrs kids q, root = .elem p b!"comps" attrs kids q ∧
    DocSafe (fun _ => True) (fun a k => AttrsOk a ∧ Has a k) kids) ∨
  ((∃ p n attrs kids q, root = .elem p n attrs kids q) ∧ root.Tidy fun _ => True)

/-- **C29, partial.**  The file may be any tree of elements with any names and attributes, read to any
point (`es₁`).
Missing: files with `<comps>` inside, with an empty `<display_order>`, `<uservisible>` or
`<biarchonly>`, with a number that no `int` can hold, or with an element of a dictionary without its
key (`C29_false_nested`, `C29_false_order`, `C29_false_text`, `C29_false_match`), and attribute
tables that are read out of bounds (`C29_false_table`). -/
theorem C29_partial (lt : UInt8 → UInt8 → Bool) (opts : Defaults) (extra : Bytes → List Bytes)
    (enc : Option Bytes) (dt : DocType) (root : XNode) (hs : FileSafe root)
    (es₁ es₂ : List (Pos × Event)) (he : es₁ ++ es₂ = fileEvents dt root) :
    ∃ s, steps (Reading.plain lt opts extra).ctx (init enc) es₁ = .ok s ∧
      (es₂ = [] → s.stack = []) := by
  have hctx : (Reading.plain lt opts extra).ctx = (asStored lt opts extra).ctx := rfl
  rw [hctx]
  have key : ∃ s, steps (asStored lt opts extra).ctx (init enc) (fileEvents dt root) = .ok s ∧
      s.stack = [] := by
    rcases hs with ⟨p, attrs, kids, q, rfl, hs⟩ | ⟨⟨p, n, attrs, kids, q, rfl⟩, ht⟩
    · obtain ⟨s, h1, h2, -⟩ := file_ok (asStored lt opts extra) enc dt p q (attrs := attrs)
        (fits_stored attrs) (safe_mono (fun a _ => fits_stored a) (fun a k h => by
          show (attrDict lt a).get k ≠ none
          rw [attrDict_attrOf lt h.1]; exact h.2) hs)
      exact ⟨s, h1, h2.stack⟩
    · obtain ⟨s, h1, h2, -⟩ := fileEvents_ok (asStored lt opts extra).ctx enc dt
        (.elem p n attrs kids q)
      obtain ⟨s', k1, k2, -⟩ := stray_ok (asStored lt opts extra) _
        (tidy_mono (fun a _ => fits_stored a) _ ht) h2 (by
          intro p' n' attrs' kids' q' he; cases he
          refine invalid_of (st := []) (path := []) trivial (by simp) ht.1 ?_
          rintro (⟨h, -⟩ | ⟨h, -⟩)
          · exact ht.1 h
          · cases h)
      exact ⟨s', h1.trans k1.run, k2.stack⟩
  obtain ⟨s, h1, h2⟩ := key
  rw [← he] at h1
  obtain ⟨s1, k1, k2⟩ := steps_prefix h1
  refine ⟨s1, k1, fun e => ?_⟩
  subst e
  cases k2
  exact h2

example : FileSafe (el b!"comps" [(b!"x", b!"y"), (b!"xy", b!"z")] sampleKids) :=
  .inl ⟨_, _, _, _, rfl, safe_mono (fun _ _ => trivial) (fun a k h => ⟨by
    -- the attributes of the sample are in order
    exact h.1, h.2⟩) (has := fun a k => AttrsOk a ∧ Has a k) (by
      have h := sample_safe
      exact ⟨allTidy_mono (fun _ _ => trivial) _ h.tidy, h.groups, h.categories, h.environments, by
        intro p attrs kids q hm
        simp [sampleKids, el, tx] at hm
        obtain ⟨-, -, rfl, -⟩ := hm
        intro p attrs kids q hm
        simp at hm
        obtain ⟨-, rfl, -⟩ := hm
        refine ⟨⟨by simp, ?_⟩, by unfold Has; decide⟩
        simp only [List.pairwise_cons, List.mem_cons, List.not_mem_nil, or_false, forall_eq,
          List.Pairwise.nil, and_true, false_implies, implies_true]
        refine ⟨by decide, ?_⟩
        rintro ⟨x, xs, h⟩
        revert h; simp, (by intro p attrs kids q h; simp [sampleKids, el, tx] at h),
        (by intro p attrs kids q h; simp [sampleKids, el, tx] at h)⟩)⟩

/-- The handler calls of a file in the example context. -/
def runFile (root : XNode) : Res Parsed := steps plainReading.ctx (init none) (fileEvents none root)

/-- A group in a file. -/
def inGroup (kids : List XNode) : XNode := el b!"comps" [] [el b!"group" [] kids]

/-- **C29, false**: flags without text. -/
theorem C29_false_text :
    faultOf (runFile (inGroup [el b!"uservisible" [] []])) = some .nullDeref ∧
    faultOf (runFile (inGroup [el b!"biarchonly" [] []])) = some .nullDeref := by decide +kernel

/-- **C29, false**: a display order without text, and one that is too large. -/
theorem C29_false_order :
    faultOf (runFile (inGroup [el b!"display_order" [] []])) = some .nullDeref ∧
    faultOf (runFile (inGroup [el b!"display_order" [] [tx b!"2147483648"]])) =
      some .badConversion := by decide +kernel

/-- **C29, false**: `<comps>` in a group makes a new document, and the group is gone. -/
theorem C29_false_nested :
    faultOf (runFile (inGroup [el b!"comps" [] [], el b!"id" [] [tx b!"a"]])) =
      some .nullDeref := by decide +kernel

/-- **C29, false**: dictionary entries without their key. -/
theorem C29_false_match :
    faultOf (runFile (el b!"comps" [] [el b!"langpacks" [] [el b!"match" [] []]])) =
      some .nullDeref ∧
    faultOf (runFile (el b!"comps" [] [el b!"blacklist" [] [el b!"package" [] []]])) =
      some .nullDeref ∧
    faultOf (runFile (el b!"comps" [] [el b!"whiteout" [] [el b!"ignoredep" [] []]])) =
      some .nullDeref := by decide +kernel

/-- **C29, false**: the attribute tables of `<name>` and `<description>` have no end. -/
theorem C29_false_table :
    faultOf (steps { plainReading.ctx with nameTail := none } (init none)
      (fileEvents none (inGroup [el b!"name" [] [tx b!"a"]]))) = some .outOfBounds ∧
    faultOf (steps { plainReading.ctx with descTail := none } (init none)
      (fileEvents none (inGroup [el b!"description" [] [tx b!"a"]]))) = some .outOfBounds := by
  decide +kernel

/-! ## C30 -/

/-- **C30, partial.**  The result of `comps_parse_file` on any parser, for any calls of handlers and
any errors: -1 if some piece of the input is not well-formed, otherwise 1 if there is a message and 0
if there is none; -1 for a NULL file.  The same for `comps_parse_str` on a new parser.
Missing: `comps_parse_str` on a parser that was used before (`C30_false`). -/
theorem C30_partial (cx : Ctx) :
    (∀ (s₀ : Parsed) (cs : List Chunk) (c : Int) (s : Parsed),
      parseFile cx s₀ (some cs) = .ok (c, s) →
      (c = -1 ↔ ∃ x ∈ cs, x.error ≠ none) ∧
      (c = 1 ↔ (∀ x ∈ cs, x.error = none) ∧ s.log ≠ []) ∧
      (c = 0 ↔ (∀ x ∈ cs, x.error = none) ∧ s.log = [])) ∧
    (∀ s₀ : Parsed, ∃ s, parseFile cx s₀ none = .ok (-1, s)) ∧
    (∀ (enc : Option Bytes) (x : Chunk) (c : Int) (s : Parsed),
      parseStr cx (init enc) x = .ok (c, s) →
      (c = -1 ↔ x.error ≠ none) ∧
      (c = 1 ↔ x.error = none ∧ s.log ≠ []) ∧
      (c = 0 ↔ x.error = none ∧ s.log = [])) := by
  refine ⟨?_, fun s₀ => ⟨_, rfl⟩, ?_⟩
  · intro s₀ cs c s h
    simp only [parseFile, bind, Except.bind] at h
    cases h1 : reinit s₀ with
    | error f => rw [h1] at h; cases h
    | ok s1 =>
      rw [h1] at h
      simp only at h
      have hf : s1.fatal = false := by
        unfold reinit at h1
        split at h1
        · cases h1; rfl
        · simp only [bind, Except.bind] at h1
          split at h1
          · cases h1
          · cases h1; rfl
        · cases h1
      cases h2 : cs.foldlM (feed cx) s1 with
      | error f => rw [h2] at h; cases h
      | ok s2 =>
        rw [h2] at h
        simp only at h
        cases h3 : afterParse s2 with
        | error f => rw [h3] at h; cases h
        | ok s3 =>
          rw [h3] at h
          cases h
          have k1 := feeds_ok h2
          have k2 := (after_keeps h3).1
          rw [k1, hf, Bool.false_or] at k2
          obtain ⟨a, b, d⟩ := resultCode_iff s
          rw [a, b, d, k2]
          have e : (cs.any fun c => c.error.isSome) = false ↔ ∀ x ∈ cs, x.error = none := by
            simp
          rw [e]
          refine ⟨?_, Iff.rfl, Iff.rfl⟩
          rw [List.any_eq_true]
          constructor
          · rintro ⟨x, hx, hs⟩
            exact ⟨x, hx, by intro e; rw [e] at hs; cases hs⟩
          · rintro ⟨x, hx, hs⟩
            exact ⟨x, hx, by cases e : x.error with
              | none => exact absurd e hs
              | some _ => rfl⟩
  · intro enc x c s h
    simp only [parseStr, bind, Except.bind] at h
    cases h2 : feed cx (init enc) x with
    | error f => rw [h2] at h; cases h
    | ok s2 =>
      rw [h2] at h
      simp only at h
      cases h3 : afterParse s2 with
      | error f => rw [h3] at h; cases h
      | ok s3 =>
        rw [h3] at h
        cases h
        have k1 := feeds_ok (cx := cx) (cs := [x]) (s := init enc) (s' := s2) (by
          simp only [List.foldlM_cons, h2, bind, Except.bind]; rfl)
        have k2 := (after_keeps h3).1
        rw [k1, show (init enc).fatal = false from rfl, Bool.false_or] at k2
        obtain ⟨a, b, d⟩ := resultCode_iff s
        rw [a, b, d, k2]
        cases hx : x.error <;> simp [hx]

/-- A file with a message and one without, and one that is not well-formed. -/
example : (∃ s, parseStr plainReading.ctx (init none)
      ⟨fileEvents none (el b!"comps" [] sampleKids), none⟩ = .ok (1, s)) ∧
    (∃ s, parseStr plainReading.ctx (init none) ⟨fileEvents none (el b!"comps" [] []), none⟩ =
      .ok (0, s)) ∧
    (∃ s, parseStr plainReading.ctx (init none) ⟨[(⟨1, 1⟩, .start b!"comps" [])], some (⟨1, 9⟩, b!"end")⟩ =
      .ok (-1, s)) := by
  refine ⟨?_, ⟨_, rfl⟩, ⟨_, rfl⟩⟩
  obtain ⟨res, h1, h2⟩ := (C59_parsed byteLt Defaults.standard (fun _ => []) none none ⟨1, 1⟩ ⟨1, 1⟩ []
    sampleKids ⟨by simp, by simp⟩ sample_safe).2
  have hc : (readDoc plainReading [] sampleKids).2 = [21, 21, 16, 16] := by decide +kernel
  have := h2.result
  rw [hc] at this
  refine ⟨res.2, ?_⟩
  rw [← show res = (1, res.2) from by rw [← show res.1 = 1 from this]]
  exact h1

/-- **C30, false**: `comps_parse_str` does not reset the parser.  After a NULL file a well-formed text
without messages gives -1. -/
theorem C30_false (lt : UInt8 → UInt8 → Bool) : ∃ s₁ s₂ : Parsed,
    parseFile (Reading.plain lt Defaults.standard (fun _ => [])).ctx (init none) none = .ok (-1, s₁) ∧
    parseStr (Reading.plain lt Defaults.standard (fun _ => [])).ctx s₁
      ⟨fileEvents none (el b!"comps" [] []), none⟩ = .ok (-1, s₂) ∧ s₂.log.length = s₁.log.length :=
  ⟨_, _, rfl, rfl, rfl⟩

/-! ## C31 -/

/-- **C31, partial.**  `s` is any state a parser can be in, with the elements `path` open.  An element
`n` that is not allowed there leaves the document and the open elements as they are and gives a
message with its name; if no text is pending, everything after it goes on as if it was not there.
Missing: `<comps>` inside of another element (`C31_false`), and text before the element
(`C31_false_text`). -/
theorem C31_partial (lt : UInt8 → UInt8 → Bool) (opts : Defaults) (extra : Bytes → List Bytes)
    (enc : Option Bytes) (es : List (Pos × Event)) (s : Parsed) (path : List Bytes)
    (hrun : steps (Reading.plain lt opts extra).ctx (init enc) es = .ok s)
    (hopen : openAfter [] es = some path) (hroot : ∀ m ∈ path.dropLast, m ≠ b!"comps")
    (p q : Pos) (n : Bytes) (attrs : List (Bytes × Bytes)) (kids : List XNode)
    (hn : n ≠ b!"comps") (hkids : AllTidy (fun _ => True) kids) (hmis : ¬ Allowed (n :: path)) :
    ∃ s' L, steps (Reading.plain lt opts extra).ctx s (XNode.elem p n attrs kids q).events = .ok s' ∧
      s'.doc = s.doc ∧ s'.stack = s.stack ∧ s'.log = s.log ++ entry 16 (some n) p :: L ∧
      (openText es = [] → ∀ es₂,
        (∀ t, steps (Reading.plain lt opts extra).ctx s es₂ = .ok t →
          ∃ t', steps (Reading.plain lt opts extra).ctx s
              ((XNode.elem p n attrs kids q).events ++ es₂) = .ok t' ∧
            t'.doc = t.doc ∧ t'.stack = t.stack) ∧
        (∀ f, steps (Reading.plain lt opts extra).ctx s es₂ = .error f →
          steps (Reading.plain lt opts extra).ctx s
              ((XNode.elem p n attrs kids q).events ++ es₂) = .error f)) := by
  have hctx : (Reading.plain lt opts extra).ctx = (asStored lt opts extra).ctx := rfl
  rw [hctx] at hrun ⊢
  have ht := steps_text (text_init enc) hrun
  have hst := steps_stack (path := []) (show StackOf _ (init enc).stack [] from trivial) hrun hopen
  obtain ⟨s', L, h1, h2⟩ := misplaced_ok (asStored lt opts extra) ht (p := p) (q := q) (n := n)
    (attrs := attrs) (kids := kids) hn
    (allTidy_mono (fun a _ => fits_stored a) _ hkids) (fits_stored attrs)
    (invalid_of hst hroot hn hmis)
  refine ⟨s', L, h1, by rw [h2], by rw [h2], by rw [h2], fun htext es₂ => ?_⟩
  have hb : s.textBuffer = [] :=
    (steps_openText (es' := []) (s := init enc) rfl hrun).trans (by simpa using htext)
  have hl : s.textLen = 0 := by rw [ht.len, hb]; rfl
  -- the state differs from `s` in the log only
  have hlog : steps (asStored lt opts extra).ctx s
        ((XNode.elem p n attrs kids q).events ++ es₂) =
      (steps (asStored lt opts extra).ctx { s with log := [] } es₂).map (onLog s'.log) := by
    rw [steps_append, h1, ← steps_onLog]
    show steps _ s' es₂ = _
    congr 1
    rw [h2]
    simp only [onLog, List.append_nil, ← hb, ← hl]
  have hlog' : steps (asStored lt opts extra).ctx s es₂ =
      (steps (asStored lt opts extra).ctx { s with log := [] } es₂).map (onLog s.log) := by
    rw [← steps_onLog]
    simp only [onLog, List.append_nil]
  rw [hlog, hlog']
  cases steps (asStored lt opts extra).ctx { s with log := [] } es₂ with
  | error f => exact ⟨(by intro t h; cases h), fun g h => by cases h; rfl⟩
  | ok t0 =>
    refine ⟨fun t h => ?_, (by intro f h; cases h)⟩
    cases h
    exact ⟨_, rfl, rfl, rfl⟩

/-- `<packagereq>` directly below `<group>` is not allowed, `<junk>` nowhere. -/
example : ¬ Allowed [b!"packagereq", b!"group", b!"comps"] ∧ ¬ Allowed [b!"junk", b!"comps"] ∧
    ¬ Allowed [b!"group", b!"junk", b!"comps"] ∧ ¬ Allowed [b!"group"] ∧
    Allowed [b!"packagereq", b!"packagelist", b!"group", b!"comps"] ∧
    openAfter [] [(⟨1, 1⟩, .start b!"comps" []), (⟨1, 8⟩, .start b!"group" [])] =
      some [b!"group", b!"comps"] := by
  simp [Allowed, allowedIn, openAfter]

/-- Number of groups in a document. -/
def groupCount (lt : UInt8 → UInt8 → Bool) (p : DocPtr) : Option Nat :=
  match p with
  | .live d => match d.getObj lt groupsSlot with
    | .ok r => some r.1.length
    | .error _ => none
  | _ => none

/-- Id of the first group in a document. -/
def firstId (lt : UInt8 → UInt8 → Bool) (r : Res Parsed) : Option PVal :=
  match r with
  | .ok s => match s.doc with
    | .live d => match d.getObj lt groupsSlot with
      | .ok r => r.1.head?.bind fun g => getStrProp g.props .id
      | .error _ => none
    | _ => none
  | .error _ => none

/-- Number of groups after a run. -/
def groupsAfter (es : List (Pos × Event)) : Option Nat :=
  match steps plainReading.ctx (init none) es with
  | .ok s => groupCount byteLt s.doc
  | .error _ => none

/-- **C31, false**: `<comps>` below an element that is not allowed replaces the document. -/
theorem C31_false :
    ¬ Allowed [b!"junk", b!"comps"] ∧
    groupsAfter ((⟨1, 1⟩, .start b!"comps" []) :: (el b!"group" [] []).events) = some 1 ∧
    groupsAfter ((⟨1, 1⟩, .start b!"comps" []) :: ((el b!"group" [] []).events ++
      (el b!"junk" [] [el b!"comps" [] []]).events)) = some 0 :=
  ⟨by simp [Allowed, allowedIn], by decide +kernel, by decide +kernel⟩

/-- **C31, false**: an element that is not allowed removes the text before it, so the id of the group
is lost. -/
theorem C31_false_text :
    ¬ Allowed [b!"junk", b!"id", b!"group", b!"comps"] ∧
    firstId byteLt (runFile (inGroup [el b!"id" [] [tx b!"core"]])) =
      some (.str ⟨some b!"core"⟩) ∧
    firstId byteLt (runFile (inGroup [el b!"id" [] [tx b!"core", el b!"junk" [] []]])) = none :=
  ⟨by simp [Allowed, allowedIn], by decide +kernel, by decide +kernel⟩

/-! ## C32 -/

/-- **C32, partial.**  Two sequences of calls that differ in the cutting of text give the same document
(or the same fault), messages with the same codes, and the same result.
Missing: pieces of white space inside of a text (`C32_false`); here pieces that are white space only
do not count as text. -/
theorem C32_partial (cx : Ctx) (enc : Option Bytes) {es es' : List (Pos × Event)}
    (h : SameText es es') :
    (∀ s, steps cx (init enc) es = .ok s → ∃ s', steps cx (init enc) es' = .ok s' ∧
      s'.doc = s.doc ∧ s'.stack = s.stack ∧ s'.log.map (·.code) = s.log.map (·.code)) ∧
    (∀ f, steps cx (init enc) es = .error f → steps cx (init enc) es' = .error f) ∧
    (∀ c s, parseStr cx (init enc) ⟨es, none⟩ = .ok (c, s) →
      ∃ s', parseStr cx (init enc) ⟨es', none⟩ = .ok (c, s') ∧ s'.doc = s.doc) := by
  have key := steps_alike (cx := cx) h (s := init enc) (t := init enc)
    ⟨rfl, rfl, rfl, text_init enc, text_init enc, rfl, rfl, rfl, rfl, rfl, rfl⟩
  cases h1 : steps cx (init enc) es with
  | error f =>
    cases h2 : steps cx (init enc) es' with
    | error g =>
      rw [h1, h2] at key
      cases (show f = g from key)
      refine ⟨fun s e => (by cases e), fun f e => (by cases e; rfl), fun c s e => ?_⟩
      simp only [parseStr, feed, h1, bind, Except.bind] at e
      cases e
    | ok t => rw [h1, h2] at key; exact key.elim
  | ok s =>
    cases h2 : steps cx (init enc) es' with
    | error g => rw [h1, h2] at key; exact key.elim
    | ok t =>
      rw [h1, h2] at key
      have key : Alike s t := key
      refine ⟨fun s' e => ?_, fun f e => (by cases e), fun c s' e => ?_⟩
      · cases e
        exact ⟨t, rfl, key.doc.symm, key.stack.symm, key.log.symm⟩
      · simp only [parseStr, feed, h1, h2, bind, Except.bind] at e ⊢
        have ha : ∀ x, afterParse s = .ok x → ∃ y, afterParse t = .ok y ∧ y.doc = x.doc ∧
            y.fatal = x.fatal ∧ y.log.isEmpty = x.log.isEmpty := by
          intro x hx
          have hl : s.log.isEmpty = t.log.isEmpty := by
            have := congrArg List.isEmpty key.log
            simpa using this
          unfold afterParse at hx ⊢
          rw [← key.name, ← key.sysid, ← key.pubid, ← key.doc]
          split at hx
          · rename_i hc
            cases hx
            rw [if_pos hc]
            exact ⟨t, rfl, key.doc.symm, key.fatal.symm, hl.symm⟩
          · rename_i hc
            rw [if_neg hc]
            cases hd : s.doc with
            | null =>
              rw [hd] at hx; cases hx
              exact ⟨t, rfl, key.doc.symm, key.fatal.symm, hl.symm⟩
            | freed => rw [hd] at hx; cases hx
            | live d =>
              rw [hd] at hx; cases hx
              exact ⟨_, rfl, rfl, key.fatal.symm, hl.symm⟩
        cases hx : afterParse s with
        | error f => rw [hx] at e; cases e
        | ok x =>
          rw [hx] at e
          obtain ⟨y, hy, h3, h4, h5⟩ := ha x hx
          cases e
          rw [hy]
          refine ⟨y, ?_, h3⟩
          simp only [resultCode, h4, h5]

/-- A text in one piece and in three. -/
example : SameText (el b!"id" [] [tx b!"a b&c"]).events
    (el b!"id" [] [tx b!"a b", tx b!"&", tx b!"c"]).events :=
  .call _ (.recut [(⟨1, 1⟩, b!"a b&c")] [(⟨1, 1⟩, b!"a b"), (⟨1, 1⟩, b!"&"), (⟨1, 1⟩, b!"c")]
    (by decide) (.call _ .nil))

/-- **C32, false**: a piece that is white space only is dropped. -/
theorem C32_false :
    firstId byteLt (runFile (inGroup [el b!"id" [] [tx b!"a b"]])) = some (.str ⟨some b!"a b"⟩) ∧
    firstId byteLt (runFile (inGroup [el b!"id" [] [tx b!"a", tx b!" ", tx b!"b"]])) =
      some (.str ⟨some b!"ab"⟩) := by decide +kernel

/-! ## C33 -/

/-- **C33, partial.**  In a document read from a file there is one group for each `<group>`, in order,
and its three flags are the last valid ones in the file or else the defaults.  Attributes are
arbitrary.
Missing: the files excluded in `C29_partial`. -/
theorem C33_partial (lt : UInt8 → UInt8 → Bool) (opts : Defaults) (extra : Bytes → List Bytes)
    (enc : Option Bytes) (dt : DocType) (p q : Pos) (attrs : List (Bytes × Bytes))
    (kids : List XNode)
    (hs : DocSafe (fun _ => True) (fun a k => AttrsOk a ∧ Has a k) kids)
    (cs : List Chunk) (hc : ∀ c ∈ cs, c.error = none)
    (he : cs.flatMap (·.events) = fileEvents dt (.elem p b!"comps" attrs kids q)) :
    ∃ c s d gs d', parseFile (Reading.plain lt opts extra).ctx (init enc) (some cs) = .ok (c, s) ∧
      s.doc = .live d ∧ d.getObj lt groupsSlot = .ok (gs, d') ∧
      gs.map (fun g => (getNumProp g.props .dflt, getNumProp g.props .uservisible,
        getNumProp g.props .biarchonly)) =
      (kidsOf b!"group" kids).map fun k => (some (PVal.num (flagIn b!"default" opts.dflt k)),
        some (PVal.num (flagIn b!"uservisible" opts.uservisible k)),
        some (PVal.num (flagIn b!"biarchonly" opts.biarchonly k))) := by
  obtain ⟨res, h1, h2⟩ := (parsed_of (r := asStored lt opts extra) (enc := enc) (dt := dt) (p := p)
    (q := q) (attrs := attrs) (kids := kids) (fits_stored attrs)
    (safe_mono (fun a _ => fits_stored a) (fun a k h => by
          show (attrDict lt a).get k ≠ none
          rw [attrDict_attrOf lt h.1]; exact h.2) hs)).1 cs hc he
  obtain ⟨d, k1, -, k2, -⟩ := h2.doc
  obtain ⟨d', k3⟩ := k2.groups
  exact ⟨res.1, res.2, d, _, d', h1, k1, k3, doc_flags (asStored lt opts extra) attrs kids⟩

/-- Flags: the last valid one; a value that is not valid does not count. -/
example : flagIn b!"default" false
      [el b!"default" [] [tx b!"true"], el b!"id" [] [tx b!"x"], el b!"default" [] [tx b!"yes"]] = 1 ∧
    flagIn b!"uservisible" true [el b!"uservisible" [] [tx b!"tr", tx b!"ue"],
      el b!"uservisible" [] [tx b!"false"]] = 0 ∧
    flagIn b!"biarchonly" true sampleKids = 1 ∧
    (kidsOf b!"group" sampleKids).map (flagIn b!"uservisible" true) = [0] := by decide +kernel

end Comps.Props

section
open Comps.Props
#print axioms C59_parsed
#print axioms C29_partial
#print axioms C29_false_text
#print axioms C29_false_order
#print axioms C29_false_nested
#print axioms C29_false_match
#print axioms C29_false_table
#print axioms C30_partial
#print axioms C30_false
#print axioms C31_partial
#print axioms C31_false
#print axioms C31_false_text
#print axioms C32_partial
#print axioms C32_false
#print axioms C33_partial
end
