import Verif.Lemmas.ParseLife
import Verif.Props.ParseAny

/-!
# One parser for several inputs (C161, C162)

A parser is made by `init enc`, used in any way (`runUses`: files, strings, the caller takes the
document), and destroyed.  `account` (Spec/ParseLife) says what becomes of the documents, looking at
nothing but the tags `<comps>` in the inputs.
-/

namespace Comps.Props
open Comps Comps.Spec Comps.Obj Comps.Text Comps.Parse
open Comps.Xml (Defaults)

variable {lt : UInt8 → UInt8 → Bool} {enc : Option Bytes}

/-! ### inputs for the examples -/

/-- A complete file in one piece, followed by the end of the file. -/
def fileOf (root : XNode) : List Chunk := [⟨fileEvents none root, none⟩, ⟨[], none⟩]
/-- A file with a group. -/
def goodFile : List Chunk := fileOf (el b!"comps" [] [el b!"group" [] [el b!"id" [] [tx b!"a"]]])
/-- A file with an empty `<comps>`. -/
def emptyFile : List Chunk := fileOf (el b!"comps" [] [])
/-- A file of another kind. -/
def otherFile : List Chunk := fileOf (el b!"html" [] [])
/-- A file that breaks off in a text. -/
def cutFile : List Chunk := [⟨[(⟨1, 1⟩, .start b!"comps" []), (⟨1, 8⟩, .text b!"x")],
  some (⟨1, 9⟩, b!"no element found")⟩]

/-- A parse of a file as a use of the parser. -/
def useFile (cs : List Chunk) : Use := .file plainReading.ctx (some cs)

/-! ## C162 -/

/-- **C162, exact.**  After any uses that came to an end, the documents lost are those `account`
counts, and destroying the parser is safe exactly if the parser does not point to a released document.
If it does, destroying it and parsing another file are both a use after free. -/
theorem C162_exact {us : List Use} {s : Parsed} {k : Nat} (hlt : ∀ u ∈ us, Use.Lt lt u)
    (h : runUses (init enc) us = .ok (s, k)) :
    k = (account us).lost ∧
    (parsedDestroy s = .ok () ↔ (account us).held ≠ .gone) ∧
    ((account us).held = .gone → parsedDestroy s = .error .useAfterFree ∧
      ∀ cx cs, parseFile cx s (some cs) = .error .useAfterFree) := by
  have ha := uses_account 0 h
  have hs := uses_any hlt (new_any lt enc) h
  rw [Nat.zero_add] at ha
  have hk : k = (account us).lost := congrArg Account.lost ha
  have hh : docKind s.doc = (account us).held := congrArg Account.held ha
  refine ⟨hk, ?_, ?_⟩
  · rw [← hh]
    unfold parsedDestroy
    cases hd : s.doc with
    | null => simp [docKind]
    | freed => simp [docKind]
    | live d => simp [docKind, destroy_any hs hd]
  · intro hg
    rw [← hh] at hg
    cases hd : s.doc with
    | null => rw [hd] at hg; cases hg
    | live d => rw [hd] at hg; cases hg
    | freed =>
      refine ⟨by simp [parsedDestroy, hd], fun cx cs => ?_⟩
      simp only [parseFile, reinit, hd]
      rfl

/-- **C162, partial.**  If every file has one `<comps>`, then the parser can be used for any number
of files, the caller may take the documents, and destroying the parser is safe; no document is lost.
Missing: files without `<comps>` (`C162_false`), files with several, and `comps_parse_str`
(`C162_false_lost`). -/
theorem C162_partial {us : List Use} {s : Parsed} {k : Nat} (hlt : ∀ u ∈ us, Use.Lt lt u)
    (hone : ∀ u ∈ us, ∀ cx f, u = .file cx f → ∀ cs, f = some cs → roots (inputOf cs) = 1)
    (hstr : ∀ u ∈ us, ∀ cx c, u ≠ .str cx c) (h : runUses (init enc) us = .ok (s, k)) :
    parsedDestroy s = .ok () ∧ k = 0 := by
  have key : ∀ (us : List Use) (a : Account),
      (∀ u ∈ us, ∀ cx f, u = .file cx f → ∀ cs, f = some cs → roots (inputOf cs) = 1) →
      (∀ u ∈ us, ∀ cx c, u ≠ .str cx c) → a.held ≠ .gone ∧ a.lost = 0 →
      (us.foldl Account.use a).held ≠ .gone ∧ (us.foldl Account.use a).lost = 0 := by
    intro us
    induction us with
    | nil => intro a _ _ ha; exact ha
    | cons u us ih =>
      intro a h1 h2 ha
      rw [List.foldl_cons]
      refine ih _ (fun u h => h1 u (.tail _ h)) (fun u h => h2 u (.tail _ h)) ?_
      obtain ⟨held, lost⟩ := a
      obtain ⟨ha1, ha2⟩ := ha
      simp only at ha1 ha2
      subst ha2
      cases u with
      | str cx c => exact absurd rfl (h2 _ (.head _) cx c)
      | take => exact ⟨nofun, rfl⟩
      | file cx f =>
        cases f with
        | none => exact ⟨ha1, rfl⟩
        | some cs =>
          have := h1 _ (.head _) cx _ rfl cs rfl
          simp only [Account.use, Account.read, this]
          cases held <;> simp [Account.reset] <;> exact absurd rfl ha1
  obtain ⟨h1, h2, -⟩ := C162_exact hlt h
  obtain ⟨h3, h4⟩ := key us ⟨.none, 0⟩ hone hstr ⟨nofun, rfl⟩
  exact ⟨h2.2 h3, h1.trans h4⟩

/-- Three files, the document of the first taken. -/
example : ∃ s, runUses (init none) [useFile goodFile, .take, useFile emptyFile, useFile goodFile] =
    .ok (s, 0) ∧ parsedDestroy s = .ok () := by
  have h : (runUses (init none) [useFile goodFile, .take, useFile emptyFile, useFile goodFile]).isOk =
      true := by decide +kernel
  cases hr : runUses (init none) [useFile goodFile, .take, useFile emptyFile, useFile goodFile] with
  | error f => rw [hr] at h; cases h
  | ok r =>
    obtain ⟨s, k⟩ := r
    obtain ⟨h1, rfl⟩ := C162_partial (lt := plainReading.ctx.lt) (by
        intro u hu
        simp only [List.mem_cons, List.not_mem_nil, or_false] at hu
        rcases hu with rfl | rfl | rfl | rfl <;> first | rfl | trivial) (by
        intro u hu cx f hf cs hcs
        subst hcs
        simp only [List.mem_cons, List.not_mem_nil, or_false] at hu
        rcases hu with rfl | rfl | rfl | rfl <;> first | (cases hf; decide) | cases hf) (by
        intro u hu cx c hc
        subst hc
        simp [useFile] at hu) hr
    exact ⟨s, rfl, h1⟩

/-- **C162, false.**  A file with `<comps>`, then a file of another kind: destroying the parser is a
use after free, and so is reading a third file. -/
theorem C162_false : ∃ s, runUses (init none) [useFile goodFile, useFile otherFile] = .ok (s, 0) ∧
    parsedDestroy s = .error .useAfterFree ∧
    ∀ cx cs, parseFile cx s (some cs) = .error .useAfterFree := by
  have h : (runUses (init none) [useFile goodFile, useFile otherFile]).isOk = true := by
    decide +kernel
  cases hr : runUses (init none) [useFile goodFile, useFile otherFile] with
  | error f => rw [hr] at h; cases h
  | ok r =>
    obtain ⟨s, k⟩ := r
    obtain ⟨h1, -, h3⟩ := C162_exact (lt := plainReading.ctx.lt) (by
        intro u hu
        simp only [List.mem_cons, List.not_mem_nil, or_false] at hu
        rcases hu with rfl | rfl <;> rfl) hr
    have ha : account [useFile goodFile, useFile otherFile] = ⟨.gone, 0⟩ := by decide +kernel
    rw [ha] at h1 h3
    cases h1
    exact ⟨s, rfl, h3 rfl⟩

/-- **C162, false.**  A `<comps>` inside of another loses a document, and so do two strings read with
one parser. -/
theorem C162_false_lost :
    (∃ s, runUses (init none) [useFile (fileOf (el b!"comps" [] [el b!"comps" [] []]))] =
      .ok (s, 1)) ∧
    (∃ s, runUses (init none) [.str plainReading.ctx ⟨fileEvents none (el b!"comps" [] []), none⟩,
      .str plainReading.ctx ⟨fileEvents none (el b!"comps" [] []), none⟩] = .ok (s, 1)) :=
  ⟨⟨_, rfl⟩, ⟨_, rfl⟩⟩

/-! ## C161 -/

/-- **C161, partial.**  A parser that was used in any way, on inputs that end without text after the
last tag, reads a file exactly as a new parser does: the same result, document and messages, or the
same fault; provided it does not point to a released document, and the file has a `<comps>` or the
parser has no document.
Missing: the other files (`C161_false`) and inputs that break off in a text (`C161_false_text`). -/
theorem C161_partial {us : List Use} {s : Parsed} {k : Nat} (hlt : ∀ u ∈ us, Use.Lt lt u)
    (htidy : ∀ u ∈ us, Use.Tidy u) (h : runUses (init enc) us = .ok (s, k))
    (hgone : (account us).held ≠ .gone) (cx : Ctx) (cs : List Chunk)
    (hroot : roots (inputOf cs) ≠ 0 ∨ (account us).held = .none) :
    parseFile cx s (some cs) = parseFile cx (init enc) (some cs) := by
  have ha := uses_account 0 h
  have hs := uses_any hlt (new_any lt enc) h
  have ht := uses_text htidy (s := init enc) ⟨rfl, rfl⟩ h
  have hh : docKind s.doc = (account us).held := congrArg Account.held ha
  obtain ⟨r1, r2, -⟩ := reinit_new hs ht.1
  have r0 : reinit (init enc) = .ok (init enc) := rfl
  rw [← hh] at hgone hroot
  simp only [parseFile, r0, bind, Except.bind]
  cases hk : docKind s.doc with
  | gone => exact absurd hk hgone
  | none => rw [r1 hk]
  | has =>
    rw [r2 hk]
    rcases hroot with hroot | hroot
    · simp only
      rw [feeds_before .freed (s := init enc) nofun hroot]
    · rw [hk] at hroot; cases hroot

/-- Three files read with one parser. -/
example : ∃ s k, runUses (init none) [useFile goodFile, useFile emptyFile] = .ok (s, k) ∧
    parseFile plainReading.ctx s (some goodFile) =
      parseFile plainReading.ctx (init none) (some goodFile) := by
  have h : (runUses (init none) [useFile goodFile, useFile emptyFile]).isOk = true := by decide +kernel
  cases hr : runUses (init none) [useFile goodFile, useFile emptyFile] with
  | error f => rw [hr] at h; cases h
  | ok r =>
    obtain ⟨s, k⟩ := r
    refine ⟨s, k, rfl, C161_partial (lt := plainReading.ctx.lt) ?_ ?_ hr (by decide +kernel) _ _
      (.inl (by decide +kernel))⟩
    · intro u hu
      simp only [List.mem_cons, List.not_mem_nil, or_false] at hu
      rcases hu with rfl | rfl <;> rfl
    · intro u hu
      simp only [List.mem_cons, List.not_mem_nil, or_false] at hu
      rcases hu with rfl | rfl <;> rfl

/-- **C161, false.**  A parser that has a document reads no file without `<comps>` as a new one does:
where the new parser comes to an end without a document, it faults or is left with a pointer to the
document released before. -/
theorem C161_false {us : List Use} {s : Parsed} {k : Nat} (hlt : ∀ u ∈ us, Use.Lt lt u)
    (htidy : ∀ u ∈ us, Use.Tidy u) (h : runUses (init enc) us = .ok (s, k))
    (hhas : (account us).held = .has) (cx : Ctx) (cs : List Chunk) (hroot : roots (inputOf cs) = 0)
    {c : Int} {s' : Parsed} (hnew : parseFile cx (init enc) (some cs) = .ok (c, s')) :
    s'.doc = .null ∧ (parseFile cx s (some cs) = .error .useAfterFree ∨
      parseFile cx s (some cs) = .ok (c, { s' with doc := .freed })) := by
  have ha := uses_account 0 h
  have hs := uses_any hlt (new_any lt enc) h
  have ht := uses_text htidy (s := init enc) ⟨rfl, rfl⟩ h
  have hh : docKind s.doc = (account us).held := congrArg Account.held ha
  obtain ⟨-, r2, -⟩ := reinit_new hs ht.1
  have r := r2 (hh.trans hhas)
  obtain ⟨s0, s1, h0, h1, h2, h3⟩ := parseFile_inv hnew
  cases h0
  have h1 : cs.foldlM (feed cx) (init enc) = .ok s1 := h1
  have hn := feeds_none .freed (cx := cx) (cs := cs) (s := init enc) nofun hroot
  rw [h1] at hn
  have hd1 : docKind s1.doc = .none := by
    have := congrArg Account.held (feeds_account (cx := cx) 0 h1)
    rw [show Account.held ⟨docKind s1.doc, _⟩ = docKind s1.doc from rfl] at this
    rw [this]
    simp only [Account.read, hroot]
    rfl
  have hd : s1.doc = .null := by
    cases hx : s1.doc with
    | null => rfl
    | live d => rw [hx] at hd1; cases hd1
    | freed => rw [hx] at hd1; cases hd1
  simp only at h2 h3
  have hs' : s' = s1 := by
    unfold afterParse at h2
    rw [hd] at h2
    simp only at h2
    split at h2 <;> (cases h2; rfl)
  subst hs'
  refine ⟨hd, ?_⟩
  simp only [parseFile, r, bind, Except.bind, hn, Except.map]
  have hx : afterParse { s' with doc := .freed } = .ok { s' with doc := .freed } ∨
      afterParse { s' with doc := .freed } = .error .useAfterFree := by
    unfold afterParse
    split
    · exact .inl rfl
    · exact .inr rfl
  rcases hx with hx | hx
  · right; rw [hx, h3]; rfl
  · left; rw [hx]

/-- Such a file. -/
example : ∃ c s', parseFile plainReading.ctx (init none) (some otherFile) = .ok (c, s') ∧
    roots (inputOf otherFile) = 0 ∧ (account [useFile goodFile]).held = .has :=
  ⟨_, _, rfl, rfl, by decide +kernel⟩

/-- **C161, false.**  After a file that broke off in a text a complete file with nothing to complain
about gives a message. -/
theorem C161_false_text : ∃ s s₁ s₂,
    runUses (init none) [useFile cutFile] = .ok (s, 0) ∧
    parseFile plainReading.ctx (init none) (some emptyFile) = .ok (0, s₁) ∧ s₁.log = [] ∧
    parseFile plainReading.ctx s (some emptyFile) = .ok (1, s₂) ∧ s₂.log.map (·.code) = [23] :=
  ⟨_, _, _, rfl, rfl, rfl, rfl, rfl⟩

#print axioms C161_partial
#print axioms C161_false
#print axioms C161_false_text
#print axioms C162_exact
#print axioms C162_partial
#print axioms C162_false
#print axioms C162_false_lost

end Comps.Props
