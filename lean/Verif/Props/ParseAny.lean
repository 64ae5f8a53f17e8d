import Verif.Lemmas.ParseAny
import Verif.Props.Parse
import Verif.Props.DocCopy
import Verif.Props.ValidateDoc

/-!
# Parsing anything (C33, C139)

`Used lt enc s` (Spec/ParseAny): the parser `s` was made for the encoding `enc` and then used in any
way, on any input, well-formed or not.  `fileEvents dt root` are the calls for a complete file with
the root element `root`; no condition is put on names, attributes, texts and nesting.
-/

namespace Comps.Props
open Comps Comps.Spec Comps.Obj Comps.Text Comps.Parse Comps.Val
open Comps.Xml (Defaults)

variable {lt : UInt8 → UInt8 → Bool} {enc : Option Bytes}

/-- The ids and the flags "default" of the groups of the document of a parser. -/
def flagsRead (r : Res (Int × Parsed)) : Option (List (Option PVal × Option PVal)) :=
  match r with
  | .ok (_, s) => match s.doc with
    | .live d => match d.getObj byteLt groupsSlot with
      | .ok (gs, _) => some (gs.map fun g => (getStrProp g.props .id, getNumProp g.props .dflt))
      | .error _ => none
    | _ => none
  | .error _ => none

/-- What `flagsRead` shows is there. -/
theorem flagsRead_live {r : Res (Int × Parsed)} {l : List (Option PVal × Option PVal)}
    (h : flagsRead r = some l) : ∃ q d, r = .ok q ∧ q.2.doc = .live d := by
  unfold flagsRead at h
  split at h
  · rename_i n s
    split at h
    · rename_i d hd; exact ⟨(n, s), d, rfl, hd⟩
    · cases h
  · cases h

/-- For the examples: a file that breaks off in its second group. -/
def brokenOff : List Chunk := [⟨[Event.start b!"comps" [],
  .start b!"group" [(b!"x", b!"y")], .start b!"id" [], .text b!"a", .stop b!"id", .stop b!"group",
  .start b!"group" [], .start b!"id" [], .text b!"b", .stop b!"id", .start b!"default" [],
  .text b!"true"].map fun e => (⟨1, 0⟩, e), some (⟨1, 99⟩, b!"no element found")⟩]

/-- Both groups are in the document, the second has no flag. -/
theorem brokenOff_read : flagsRead (parseFile plainReading.ctx (init none) (some brokenOff)) =
    some [(some (.str ⟨some b!"a"⟩), some (.num 0)), (some (.str ⟨some b!"b"⟩), none)] := by
  decide +kernel

/-! ## C139 -/

/-- A document in a parser: made through the API, without a NULL list. -/
theorem C139_built {s : Parsed} (hs : Used lt enc s) {d : Doc} (hd : s.doc = .live d) :
    DocBuilt lt d ∧ d.encoding = some ⟨enc⟩ ∧ ∃ c, Shows lt d c ∧ Whole c := by
  obtain ⟨h1, h2, h3⟩ := (used_any hs).doc d hd
  exact ⟨h1, h2.1, _, shows_content (docBuilt_inv h1), h3.whole⟩

theorem whole_full {c : DocContent} (h : Whole c) : FullLists c :=
  ⟨fun g hg => Option.ne_none_iff_exists'.1 (h.packages g hg),
    fun g hg => Option.ne_none_iff_exists'.1 (h.ids g hg),
    fun g hg => ⟨Option.ne_none_iff_exists'.1 (h.lists g hg).1,
      Option.ne_none_iff_exists'.1 (h.lists g hg).2⟩⟩

/-- **C139.**  Any two documents that parsers hold after any use can be compared, merged and
intersected, and destroyed. -/
theorem C139_usable {enc' : Option Bytes} {s t : Parsed} (hs : Used lt enc s) (ht : Used lt enc' t)
    {a b : Doc} (ha : s.doc = .live a) (hb : t.doc = .live b) :
    (∃ r, a.cmp lt b = .ok r) ∧ (∃ d, a.union lt b = .ok d ∧ DocBuilt lt d) ∧
    (∃ d, a.intersect lt b = .ok d ∧ DocBuilt lt d) ∧ a.destroy = .ok () := by
  obtain ⟨a1, a2, ca, a3, a4⟩ := C139_built hs ha
  obtain ⟨b1, b2, cb, b3, b4⟩ := C139_built ht hb
  refine ⟨?_, ?_, ?_, ?_⟩
  · obtain ⟨r, h, -⟩ := C41_doc_meaning a1 b1 a3 b3
    exact ⟨r, h⟩
  · obtain ⟨d, c, h, -⟩ := C23_ids a1 b1 a2 a3 b3
    exact ⟨d, h, .union a1 b1 h⟩
  · obtain ⟨d, c, h, -⟩ := C24_partial a1 b1 a2 a3 b3 (whole_full a4) (whole_full b4)
    exact ⟨d, h, .intersect a1 b1 h⟩
  · have := ((used_any hs).doc a ha).2.1.2.1
    simp [Doc.destroy, this]

/-- **C139.**  A document that a parser holds after any use can be validated: it is valid exactly if
every entry has an id that is not empty and no entry has the same package or group id twice in a
list (up to 10^9 members in a list). -/
theorem C139_validated {s : Parsed} (hs : Used lt enc s) {d : Doc} (hd : s.doc = .live d)
    {c : DocContent} (hc : Shows lt d c) (hn : ∀ g ∈ c.groups, (g.packages.getD []).length ≤ 10 ^ 9)
    (hi : ∀ g ∈ c.categories, (g.groupIds.getD []).length ≤ 10 ^ 9)
    (he : ∀ g ∈ c.environments, (g.groupList.getD []).length ≤ 10 ^ 9 ∧
      (g.optionList.getD []).length ≤ 10 ^ 9)
    (hf : c.groups.length < 2 ^ 64 ∧ c.categories.length < 2 ^ 64 ∧ c.environments.length < 2 ^ 64) :
    ∃ num : Nat → Bytes, (∀ n, IsDec n (num n)) ∧
      ∃ v, execute (.doc d) (docRules lt) = .ok v ∧ Says v (docReport num c) := by
  obtain ⟨h1, -, c', h3, h4⟩ := C139_built hs hd
  cases shows_unique h3 hc
  refine C61_partial h1 hc ⟨?_, ?_, ?_, hf⟩
  · intro g hg
    obtain ⟨l, hl⟩ := (whole_full h4).1 g hg
    have hl : g.packages = some l := hl
    exact ⟨l, hl, by have := hn g hg; rwa [hl] at this⟩
  · intro g hg
    obtain ⟨l, hl⟩ := (whole_full h4).2.1 g hg
    have hl : g.groupIds = some l := hl
    exact ⟨l, hl, by have := hi g hg; rwa [hl] at this⟩
  · intro g hg
    obtain ⟨⟨l, hl⟩, m, hm⟩ := (whole_full h4).2.2 g hg
    have hl : g.groupList = some l := hl
    have hm : g.optionList = some m := hm
    have := he g hg
    rw [hl, hm] at this
    exact ⟨⟨l, hl, this.1⟩, m, hm, this.2⟩

/-- The file that breaks off: the document in the parser can be merged with itself. -/
example : ∃ r d, parseFile plainReading.ctx (init none) (some brokenOff) = .ok r ∧
    r.2.doc = .live d ∧ ∃ e, d.union byteLt d = .ok e := by
  obtain ⟨r, d, h1, h2⟩ := flagsRead_live brokenOff_read
  have hu : Used byteLt none r.2 := .file plainReading.ctx _ rfl .new h1
  obtain ⟨e, he, -⟩ := (C139_usable hu hu h2 h2).2.1
  exact ⟨r, d, h1, h2, e, he⟩

/-- Is the content of the document that of two groups, without packages? -/
def twoBare (r : Res (Int × Parsed)) : Bool :=
  match r with
  | .ok (_, s) => match s.doc with
    | .live d => (content d).groups.all (fun g => (g.packages.getD []).length == 0) &&
      (content d).groups.length == 2 && (content d).categories.length == 0 &&
      (content d).environments.length == 0
    | _ => false
  | .error _ => false

/-- The same document can be validated. -/
example : ∃ r d, parseFile plainReading.ctx (init none) (some brokenOff) = .ok r ∧
    r.2.doc = .live d ∧ ∃ v, execute (.doc d) (docRules byteLt) = .ok v := by
  obtain ⟨r, d, h1, h2⟩ := flagsRead_live brokenOff_read
  have hu : Used byteLt none r.2 := .file plainReading.ctx _ rfl .new h1
  have hs : twoBare (.ok r) = true := by rw [← h1]; decide +kernel
  obtain ⟨n, s⟩ := r
  simp only [twoBare, show s.doc = .live d from h2, Bool.and_eq_true, List.all_eq_true, beq_iff_eq,
    List.length_eq_zero_iff] at hs
  obtain ⟨⟨⟨k1, k2⟩, k3⟩, k4⟩ := hs
  obtain ⟨num, -, v, hv, -⟩ := C139_validated hu h2 (shows_content (docBuilt_inv (C139_built hu h2).1))
    (fun g hg => by rw [k1 g hg]; decide) (by simp [k3]) (by simp [k4]) (by simp [k2, k3, k4])
  exact ⟨_, d, h1, h2, v, hv⟩

/-! ## C33 -/

/-- **C33.**  Every group of a document read from a complete file has its three flags set, to 0 or
to 1, whatever the file. -/
theorem C33_present {cx : Ctx} (hlt : cx.lt = lt) {s : Parsed} (hs : Used lt enc s) {cs : List Chunk}
    {dt : DocType} {root : XNode} (he : cs.flatMap (·.events) = fileEvents dt root)
    {r : Int × Parsed} (h : parseFile cx s (some cs) = .ok r) {d : Doc} (hd : r.2.doc = .live d)
    {c : DocContent} (hc : Shows lt d c) :
    ∀ g ∈ c.groups, ∀ p ∈ [NumProp.dflt, .uservisible, .biarchonly],
      ∃ b : Bool, getNumProp g.props p = some (.num (if b then 1 else 0)) := by
  have hu := used_any (.file cx (some cs) hlt hs h)
  have hst := complete_stack h he
  obtain ⟨h1, -, h3⟩ := hu.doc d hd
  rw [hst] at h3
  cases shows_unique (shows_content (docBuilt_inv h1)) hc
  have hset : ∀ g ∈ (content d).groups, FlagsSet g := by
    rcases h3.flags with h | ⟨h, -⟩
    · exact h
    · cases h
  intro g hg p hp
  rcases h3.whole.flags g hg p hp with e | e | e
  · exact absurd e (hset g hg p hp)
  · exact ⟨false, e⟩
  · exact ⟨true, e⟩

/-- **C33**, broken files: whatever the input, and wherever it breaks off, every group but the last
has its three flags set. -/
theorem C33_broken {s : Parsed} (hs : Used lt enc s) {d : Doc} (hd : s.doc = .live d)
    {c : DocContent} (hc : Shows lt d c) :
    ∀ g ∈ c.groups.dropLast, ∀ p ∈ [NumProp.dflt, .uservisible, .biarchonly],
      ∃ b : Bool, getNumProp g.props p = some (.num (if b then 1 else 0)) := by
  obtain ⟨h1, -, h3⟩ := (used_any hs).doc d hd
  cases shows_unique (shows_content (docBuilt_inv h1)) hc
  intro g hg p hp
  have hm : g ∈ (content d).groups := List.dropLast_subset _ hg
  have hset : FlagsSet g := by
    rcases h3.flags with h | ⟨-, h⟩
    · exact h g hm
    · exact h g hg
  rcases h3.whole.flags g hm p hp with e | e | e
  · exact absurd e (hset p hp)
  · exact ⟨false, e⟩
  · exact ⟨true, e⟩

/-- A document inside a group of another document. -/
def nested : XNode :=
  el b!"comps" [] [el b!"group" [] [
    el b!"comps" [] [el b!"group" [] [el b!"id" [] [tx b!"x"], el b!"default" [] [tx b!"true"]]],
    el b!"default" [] [tx b!"false"]]]

/-- **C33, false**: the flag of a group is not always the one given in its element.  In the file
above the group "x" says it is a default group; it comes out as one that is not. -/
theorem C33_false : flagsRead (parseFile plainReading.ctx (init none)
    (some [⟨fileEvents none nested, none⟩])) = some [(some (.str ⟨some b!"x"⟩), some (.num 0))] := by
  decide +kernel

/-- A complete file meets the hypotheses of `C33_present`: the one above. -/
example : ∃ r d, parseFile plainReading.ctx (init none) (some [⟨fileEvents none nested, none⟩]) =
    .ok r ∧ r.2.doc = .live d ∧ ∀ c, Shows byteLt d c → ∀ g ∈ c.groups,
      ∃ b : Bool, getNumProp g.props .uservisible = some (.num (if b then 1 else 0)) := by
  obtain ⟨r, d, h1, h2⟩ := flagsRead_live C33_false
  exact ⟨r, d, h1, h2, fun c hc g hg =>
    C33_present (lt := byteLt) (dt := none) (root := nested) rfl .new (by simp) h1 h2 hc g hg
      .uservisible (by simp)⟩

/-- The file that breaks off meets the hypotheses of `C33_broken`; the flags of its last group are
not set. -/
example : ∃ r d, parseFile plainReading.ctx (init none) (some brokenOff) = .ok r ∧
    r.2.doc = .live d ∧ ∀ c, Shows byteLt d c → ∀ g ∈ c.groups.dropLast,
      ∃ b : Bool, getNumProp g.props .dflt = some (.num (if b then 1 else 0)) := by
  obtain ⟨r, d, h1, h2⟩ := flagsRead_live brokenOff_read
  have hu : Used byteLt none r.2 := .file plainReading.ctx _ rfl .new h1
  exact ⟨r, d, h1, h2, fun c hc g hg => C33_broken hu h2 hc g hg .dflt (by simp)⟩

/-! ## Axioms -/

#print axioms C139_built
#print axioms C139_usable
#print axioms C139_validated
#print axioms C33_present
#print axioms C33_broken
#print axioms C33_false

end Comps.Props
