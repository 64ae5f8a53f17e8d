import Verif.Lemmas.RoundDoc
import Verif.Props.Xml
import Verif.Props.Parse

/-!
# Writing and reading back (C28)

`Transmits` (Spec/RoundTrip) stands for libxml2 and expat: what the writer was told arrives at the
handlers of the parser as the same tree, with text in pieces.  It is the only assumption about them.
-/

namespace Comps.Props
open Comps Comps.Spec Comps.Obj Comps.Text Comps.Xml Comps.Round
open Comps.Parse (Pos Event Parsed Chunk parseFile parseStr init)

variable {lt : UInt8 → UInt8 → Bool}

/-- The document `d` with content `c` came back: the parser holds a document with the same content and
the same document type.  It compares equal to `d` if the parser was made with the encoding of `d`.
There are no messages if nothing missing or empty was written (`Silent`). -/
structure CameBack (lt : UInt8 → UInt8 → Bool) (o : Options) (d : Doc) (c : DocContent)
    (enc : Option Bytes) (res : Int × Parsed) : Prop where
  doc : ∃ d' c', res.2.doc = .live d' ∧ DocBuilt lt d' ∧ Shows lt d' c' ∧ SameContent c c' ∧
    d'.doctypeName = d.doctypeName ∧ d'.doctypeSysid = d.doctypeSysid ∧
    d'.doctypePubid = d.doctypePubid ∧ d'.encoding = some ⟨enc⟩ ∧
    (d.encoding = some ⟨enc⟩ → d.cmp lt d' = .ok true)
  result : res.1 = 0 ∨ res.1 = 1
  silent : Silent o c → res.1 = 0 ∧ res.2.log = []

/-- What the writer was told arrives at the parser, in some way; and in whatever way it arrives, the
document comes back, read from a file in pieces or from a string. -/
structure RoundTrip (lt : UInt8 → UInt8 → Bool) (extra : Bytes → List Bytes) (o : Options)
    (df : Defaults) (d : Doc) (c : DocContent) (calls : List Call) : Prop where
  arrives : ∃ dt root, Transmits NoBlank calls dt root
  file : ∀ dt root, Transmits NoBlank calls dt root → ∀ enc, ∀ cs : List Chunk,
    (∀ c ∈ cs, c.error = none) → cs.flatMap (·.events) = fileEvents dt root →
    ∃ res, parseFile (Reading.plain lt df extra).ctx (init enc) (some cs) = .ok res ∧
      CameBack lt o d c enc res
  str : ∀ dt root, Transmits NoBlank calls dt root → ∀ enc,
    ∃ res, parseStr (Reading.plain lt df extra).ctx (init enc) ⟨fileEvents dt root, none⟩ = .ok res ∧
      CameBack lt o d c enc res

/-! ## comparing -/

theorem alike_mono {α : Type} {P Q : α → Prop} {R S : α → α → Prop} {l l' : List α}
    (h : ∀ x y, P x → Q y → R x y → S x y) (hl : ∀ x ∈ l, P x) (hl' : ∀ x ∈ l', Q x)
    (ha : Alike R l l') : Alike S l l' :=
  ⟨ha.1, fun i x y h1 h2 => h x y (hl _ (List.mem_of_getElem? h1)) (hl' _ (List.mem_of_getElem? h2))
    (ha.2 i x y h1 h2)⟩

/-- Documents with the same content, document type and encoding compare equal. -/
theorem same_cmp {d d' : Doc} (hd : DocBuilt lt d) (hd' : DocBuilt lt d') {c c' : DocContent}
    (hs : Shows lt d c) (hs' : Shows lt d' c') (h : SameContent c c')
    (h1 : d'.doctypeName = d.doctypeName) (h2 : d'.doctypeSysid = d.doctypeSysid)
    (h3 : d'.doctypePubid = d.doctypePubid) (h4 : d.encoding = d'.encoding) :
    d.cmp lt d' = .ok true := by
  obtain ⟨r, e, hr⟩ := C41_doc_meaning hd hd' hs hs'
  have i := docBuilt_inv hd
  have i' := docBuilt_inv hd'
  have x := contents_built i
  have x' := contents_built i'
  rw [← shows_unique hs (shows_content i)] at x
  rw [← shows_unique hs' (shows_content i')] at x'
  have p := C41_packages.1
  have q := C41_packages.2.2.1
  rw [e, hr.2]
  refine ⟨h4, ?_, ?_, ?_, ?_, ?_, ?_, h.langpacks, fun k => by rw [h.blacklist], fun k => by
    rw [h.whiteout]⟩
  · unfold Doc.getDoctypeName; rw [h1]
  · unfold Doc.getDoctypeSysid; rw [h2]
  · unfold Doc.getDoctypePubid; rw [h3]
  · refine alike_mono (fun a b ha hb hab => ?_) x.1 x'.1 h.groups
    rw [C41_group_meaning ha hb]
    refine ⟨hab.props, hab.names, hab.descs, ?_⟩
    unfold Group.getPackageList; rw [hab.packages]; exact .refl p _
  · refine alike_mono (fun a b ha hb hab => ?_) x.2.1 x'.2.1 h.categories
    rw [C41_category_meaning ha hb]
    refine ⟨hab.props, hab.names, hab.descs, ?_⟩
    unfold Category.getGroupIds; rw [hab.groupIds]; exact .refl q _
  · refine alike_mono (fun a b ha hb hab => ?_) x.2.2.1 x'.2.2.1 h.environments
    rw [C41_env_meaning ha hb]
    refine ⟨hab.props, hab.names, hab.descs, ?_, ?_⟩
    · unfold Env.getGroupList; rw [hab.groupList]; exact .refl q _
    · unfold Env.getOptionList; rw [hab.optionList]; exact .refl q _

/-! ## C28 -/

theorem roundTrips_writable {o : Options} {c : DocContent} (h : RoundTrips o c) : Writable c := by
  refine ⟨fun g hg => ?_, fun g hg => ?_, fun g hg => ?_⟩
  · have hi := h.groups g hg
    obtain ⟨l, hl, -⟩ := hi.packages
    refine ⟨by rw [hl]; rfl, fun n hn => ?_⟩
    obtain ⟨_, e, h0, -⟩ := hi.texts.order _ hn
    cases e; exact h0
  · have hi := h.categories g hg
    obtain ⟨l, hl, -⟩ := hi.groupIds
    refine ⟨by rw [hl]; rfl, fun n hn => ?_⟩
    obtain ⟨_, e, h0, -⟩ := hi.texts.order _ hn
    cases e; exact h0
  · have hi := h.environments g hg
    obtain ⟨l, hl, -⟩ := hi.groupList
    obtain ⟨l', hl', -⟩ := hi.optionList
    refine ⟨by rw [hl]; rfl, by rw [hl']; rfl, fun n hn => ?_⟩
    obtain ⟨_, e, h0, -⟩ := hi.texts.order _ hn
    cases e; exact h0

theorem roundTrips_all {o : Options} {c : DocContent} (h : RoundTrips o c) : leftOut o c = [] := by
  have f : ∀ {α : Type} {p : α → Bool} {l : List α}, (∀ x ∈ l, p x = true) →
      l.filter (fun x => !p x) = [] := by
    intro α p l hl
    rw [List.filter_eq_nil_iff]
    intro x hx; simp [hl x hx]
  unfold leftOut
  rw [f fun g hg => (h.groups g hg).written, f fun g hg => (h.categories g hg).written,
    f fun g hg => (h.environments g hg).written]
  rfl

/-- Once told to the writer, a document comes back. -/
theorem roundTrip_of {d : Doc} (hd : DocBuilt lt d) {c : DocContent} (hs : Shows lt d c)
    (ht : DoctypeOk d) {o : Options} {df : Defaults} (hr : RoundTrips o c)
    (extra : Bytes → List Bytes) : RoundTrip lt extra o df d c (docCalls o df d c) := by
  have i := docBuilt_inv hd
  have x := contents_built i
  rw [← shows_unique hs (shows_content i)] at x
  obtain ⟨x1, x2, x3, x4, x5, x6⟩ := x
  obtain ⟨n, hn, -⟩ := ht.name
  obtain ⟨pub, hp⟩ := ht.pubid
  obtain ⟨sys, hy⟩ := ht.sysid
  obtain ⟨ks, hk, st⟩ := doc_steps (lt := lt) (opts := df) (extra := extra) hr x1 x2 x3
  obtain ⟨tidy, safe⟩ := doc_safe hr x1 x2 x3 hk
  have hcalls : docCalls o df d c = .startDocument (encodingText d) ::
      .startDTD (some n) pub.val sys.val :: .endDTD ::
        ((Tree.elem b!"comps" [] ks).calls ++ [.endDocument]) := by
    unfold docCalls doctypeCalls
    rw [hn, hp, hy, hk]; rfl
  have back : ∀ dt root, Transmits NoBlank (docCalls o df d c) dt root →
      ∃ p p1 q1 nodes, dt = some (p, n, sys.val, pub.val) ∧
        root = .elem p1 b!"comps" [] nodes q1 ∧ ReadsAll NoBlank ks nodes := by
    rintro dt root ⟨e, p, n', pu, sy, name, attrs, kids, p1, q1, nodes, h1, h2, h3, h4⟩
    rw [hcalls] at h1
    simp only [List.cons.injEq, Call.startDTD.injEq, Option.some.injEq, true_and] at h1
    obtain ⟨-, ⟨rfl, rfl, rfl⟩, h1⟩ := h1
    obtain ⟨h5, -⟩ := calls_inj _ _ _ _ h1
    cases h5
    exact ⟨p, p1, q1, nodes, h2, h3, h4⟩
  have came : ∀ {p enc nodes res}, ReadsAll NoBlank ks nodes →
      ParsedAs lt enc (some (p, n, sys.val, pub.val))
        (readDoc (Reading.plain lt df extra) [] nodes).1
        (readDoc (Reading.plain lt df extra) [] nodes).2 res → CameBack lt o d c enc res := by
    intro p enc nodes res hnodes h
    obtain ⟨codes, e, q⟩ := st.inner hnodes (fun _ => [])
    have e1 : (readDoc (Reading.plain lt df extra) [] nodes).1 = backContent lt df extra o c := by
      simp [readDoc, e]
    have e2 : (readDoc (Reading.plain lt df extra) [] nodes).2 = codes := by
      have : attrCodes (Reading.plain lt df extra) b!"comps" [] = [] := rfl
      simp [readDoc, e, this]
    obtain ⟨h1, -, h3, d', k1, k2, k3, k4, k5⟩ := h
    rw [e1] at k3
    rw [e2] at h1 h3
    simp only [doctypeOf, Prod.mk.injEq] at k5
    have hsame := back_same (lt := lt) (opts := df) (extra := extra) hr x1 x2 x3 x4 x5 x6
    have n1 : d'.doctypeName = d.doctypeName := by rw [k5.1, hn]
    have n2 : d'.doctypeSysid = d.doctypeSysid := by rw [k5.2.1, hy]
    have n3 : d'.doctypePubid = d.doctypePubid := by rw [k5.2.2, hp]
    refine ⟨⟨d', _, k1, k2, k3, hsame, n1, n2, n3, k4, fun he => ?_⟩, ?_, fun hq => ?_⟩
    · exact same_cmp hd k2 hs k3 hsame n1 n2 n3 (by rw [he, k4])
    · rw [h1]; unfold cleanResult; split <;> simp
    · have := q hq rfl
      subst this
      exact ⟨h1, List.map_eq_nil_iff.1 h3⟩
  refine ⟨?_, ?_, ?_⟩
  · exact ⟨_, _, _, ⟨1, 1⟩, n, pub.val, sys.val, b!"comps", [], ks, ⟨1, 1⟩, ⟨1, 1⟩, nodesOf ks, hcalls,
      rfl, rfl, nodesOf_reads ks tidy⟩
  · intro dt root h enc cs hc he
    obtain ⟨p, p1, q1, nodes, rfl, rfl, hnodes⟩ := back dt root h
    obtain ⟨res, r1, r2⟩ := (C59_parsed lt df extra enc _ p1 q1 [] nodes (attrsOk_names rfl)
      (safe hnodes)).1 cs hc he
    exact ⟨res, r1, came hnodes r2⟩
  · intro dt root h enc
    obtain ⟨p, p1, q1, nodes, rfl, rfl, hnodes⟩ := back dt root h
    obtain ⟨res, r1, r2⟩ := (C59_parsed lt df extra enc _ p1 q1 [] nodes (attrsOk_names rfl)
      (safe hnodes)).2
    exact ⟨res, r1, came hnodes r2⟩

/-- C28, part that holds: a document with the properties listed in `RoundTrips` that is written (to a
file or to a string, no call of the writer failing) and parsed comes back the same.  Writer and parser
use the same default values.  Missing: documents outside of `RoundTrips`; the theorems `C28_false_*`
show why the conditions are there. -/
theorem C28_partial {d : Doc} (hd : DocBuilt lt d) {c : DocContent} (hs : Shows lt d c)
    (ht : DoctypeOk d) (hn : Counted c) (o : Option Options) (df : Option Defaults)
    (hr : RoundTrips (o.getD .standard) c) {fails : Nat → Bool} (hf : ∀ n, fails n = false)
    (extra : Bytes → List Bytes) :
    (d.logSet = true → ∃ st, toFile lt o df d (start fails d) = .ok (0, st) ∧ st.log = [] ∧
      (∀ x ∈ st.calls, x.2 = true) ∧
      RoundTrip lt extra (o.getD .standard) (df.getD .standard) d c (st.calls.map (·.1))) ∧
    ∃ st, toStr lt o df d (start fails d) = .ok (0, st) ∧ st.log = [] ∧
      (∀ x ∈ st.calls, x.2 = true) ∧
      RoundTrip lt extra (o.getD .standard) (df.getD .standard) d c (st.calls.map (·.1)) := by
  have hw := roundTrips_writable hr
  have ha := roundTrips_all hr
  have key := roundTrip_of hd hs ht (df := df.getD .standard) hr extra
  have hi := docBuilt_inv hd
  have c27 := C27_partial hd hs ht hw hn o df hf
  have all : ∀ {l : List Call} {st : St}, st.calls = l.map (fun c => (c, true)) →
      (∀ x ∈ st.calls, x.2 = true) ∧ st.calls.map (·.1) = l := by
    intro l st h
    rw [h]
    exact ⟨fun x hx => by obtain ⟨_, _, rfl⟩ := List.mem_map.1 hx; rfl, by
      rw [List.map_map]; exact List.map_id l⟩
  constructor
  · intro hl
    obtain ⟨code, st, h1, h2, -, h3⟩ := c27.1 hl
    obtain ⟨code', st1, -, j1, -, -, -, -, j2⟩ := C58_partial hd hs ht hw hl o df hf
    rw [j1] at h1
    cases h1
    have := j2 (by rw [ha]; decide)
    rw [ha] at this h3
    subst this
    obtain ⟨a1, a2⟩ := all h2
    exact ⟨st, j1, h3, a1, by rw [a2]; exact key⟩
  · obtain ⟨code, st, h1, h2, -, h3⟩ := c27.2 (.inr ha)
    have hc : code = 0 := by
      have := shows_unique hs (shows_content hi)
      subst this
      have := toStr_ok (o := o) (df := df) hi ht hw (s := start fails d) hf rfl (.inr ha)
      rw [h1] at this
      simp only [Except.ok.injEq, Prod.mk.injEq] at this
      rw [this.1, ha]
      rfl
    subst hc
    rw [ha] at h3
    obtain ⟨a1, a2⟩ := all h2
    exact ⟨st, h1, by simpa using h3, a1, by rw [a2]; exact key⟩

/-! ## What does not come back -/

mutual
/-- A tree as delivered, with text cut by `cut`. -/
def delivered (cut : Bytes → List Bytes) : Tree → List XNode
  | .elem n attrs kids => [.elem ⟨1, 1⟩ n attrs (deliveredAll cut kids) ⟨1, 1⟩]
  | .text s => (cut s).map (.text ⟨1, 1⟩ ·)
/-- The same for several trees. -/
def deliveredAll (cut : Bytes → List Bytes) : List Tree → List XNode
  | [] => []
  | t :: ts => delivered cut t ++ deliveredAll cut ts
end

theorem delivered_reads {P : List Bytes → Prop} {cut : Bytes → List Bytes} (hc : ∀ s, (cut s).flatten = s)
    (hp : ∀ s, P (cut s)) : ∀ ts : List Tree, ReadsAll P ts (deliveredAll cut ts)
  | [] => .nil
  | .elem n attrs kids :: ts => by
    have h1 := delivered_reads hc hp kids
    have h2 := delivered_reads hc hp ts
    simpa [delivered, deliveredAll] using ReadsAll.elem ⟨1, 1⟩ ⟨1, 1⟩ n attrs h1 h2
  | .text s :: ts => by
    have h2 := delivered_reads hc hp ts
    have e : ((cut s).map fun x => ((⟨1, 1⟩ : Pos), x)).map (·.2) = cut s := by
      rw [List.map_map]; exact List.map_id _
    have := ReadsAll.text (P := P) ((cut s).map fun x => (⟨1, 1⟩, x)) (by rw [e]; exact hp s) h2
    rw [e, hc, List.map_map] at this
    exact this

/-- The text in one piece. -/
def whole (s : Bytes) : List Bytes := if s.isEmpty then [] else [s]

/-- The text cut around newlines, as expat does it. -/
def lines : Bytes → List Bytes
  | [] => []
  | c :: s => if c = 10 then [10] :: lines s else match lines s with
    | [] => [[c]]
    | l :: ls => if l = [10] then [c] :: l :: ls else (c :: l) :: ls

theorem whole_flatten (s : Bytes) : (whole s).flatten = s := by
  unfold whole; cases s <;> simp

theorem whole_one (s : Bytes) : (whole s).length ≤ 1 := by
  unfold whole; split <;> simp

theorem lines_flatten (s : Bytes) : (lines s).flatten = s := by
  induction s with
  | nil => rfl
  | cons c s ih =>
    unfold lines
    split
    · rename_i h; simp [ih, h]
    · split
      · rename_i h; rw [h] at ih; simpa using ih
      · rename_i l ls h
        rw [h] at ih
        split <;> simpa using ih

theorem lines_pieces (s : Bytes) : ∀ l ∈ lines s, l = [10] ∨ (10 : UInt8) ∉ l := by
  induction s with
  | nil => simp [lines]
  | cons c s ih =>
    unfold lines
    split
    · intro l hl
      rcases List.mem_cons.1 hl with rfl | hl
      · exact .inl rfl
      · exact ih l hl
    · rename_i hc
      have hc' : (10 : UInt8) ∉ [c] := by simpa using fun h : (10 : UInt8) = c => hc h.symm
      split
      · intro l hl
        rw [List.mem_singleton.1 hl]; exact .inr hc'
      · rename_i l ls h
        rw [h] at ih
        split
        · intro x hx
          rcases List.mem_cons.1 hx with rfl | hx
          · exact .inr hc'
          · exact ih x hx
        · rename_i hl
          intro x hx
          rcases List.mem_cons.1 hx with rfl | hx
          · rcases ih l (by simp) with h1 | h1
            · exact absurd h1 hl
            · refine .inr fun h2 => ?_
              rcases List.mem_cons.1 h2 with h2 | h2
              · exact hc h2.symm
              · exact h1 h2
          · exact ih x (by simp [hx])

/-- The document is written without any failure and what is written arrives, each text as in `P`; the
parser gives a document that `same` tells from the first. -/
def Lost (lt : UInt8 → UInt8 → Bool) (P : List Bytes → Prop) (o : Options) (same : Doc → Doc → Bool)
    (d : Doc) : Prop :=
  ∃ st dt root res d', toFile lt (some o) none d (start (fun _ => false) d) = .ok (0, st) ∧
    (∀ x ∈ st.calls, x.2 = true) ∧ Transmits P (st.calls.map (·.1)) dt root ∧
    parseStr (Reading.plain lt .standard (fun _ => [])).ctx (init (some b!"UTF-8"))
      ⟨fileEvents dt root, none⟩ = .ok res ∧ res.2.doc = .live d' ∧ same d d' = false

/-- What a run of writing and reading gives: `none` if the tree is not what is written or some step
fails, otherwise whether the documents are the same. -/
def trip (lt : UInt8 → UInt8 → Bool) (cut : Bytes → List Bytes) (o : Options)
    (same : Doc → Doc → Bool) (d : Doc) (kids : List Tree) : Option Bool :=
  match toFile lt (some o) none d (start (fun _ => false) d) with
  | .ok (0, st) =>
    if st.calls = ((.startDocument b!"UTF-8" ::
        .startDTD (some b!"comps") (some b!"-//Red Hat, Inc.//DTD Comps info//EN")
          (some b!"comps.dtd") :: .endDTD ::
        ((Tree.elem b!"comps" [] kids).calls ++ [.endDocument])).map fun c => (c, true)) then
      match parseStr (Reading.plain lt .standard (fun _ => [])).ctx (init (some b!"UTF-8"))
          ⟨fileEvents (some (⟨1, 1⟩, b!"comps", some b!"comps.dtd",
              some b!"-//Red Hat, Inc.//DTD Comps info//EN"))
            (.elem ⟨1, 1⟩ b!"comps" [] (deliveredAll cut kids) ⟨1, 1⟩), none⟩ with
      | .ok res => match res.2.doc with
        | .live d' => some (same d d')
        | _ => none
      | .error _ => none
    else none
  | _ => none

theorem lost_of {P : List Bytes → Prop} {cut : Bytes → List Bytes} {o : Options}
    {same : Doc → Doc → Bool} {d : Doc} (kids : List Tree)
    (hc : ∀ s, (cut s).flatten = s) (hp : ∀ s, P (cut s))
    (h : trip lt cut o same d kids = some false) : Lost lt P o same d := by
  unfold trip at h
  split at h
  · rename_i st h1
    split at h
    · rename_i h2
      split at h
      · rename_i res h3
        split at h
        · rename_i d' h4
          refine ⟨st, _, _, res, d', h1, ?_, ?_, h3, h4, by simpa using h⟩
          · intro x hx
            rw [h2] at hx
            obtain ⟨_, _, rfl⟩ := List.mem_map.1 hx; rfl
          · refine ⟨b!"UTF-8", _, _, _, _, _, _, kids, _, _, _, ?_, rfl, rfl,
              delivered_reads hc hp kids⟩
            rw [h2, List.map_map]; exact List.map_id _
        · cases h
      · cases h
    · cases h
  · cases h

/-- A byte order to compute with. -/
abbrev asc : UInt8 → UInt8 → Bool := fun a b => a < b

/-- A group made by calls of setters. -/
def setGrp (calls : List PropCall) (l : List Package) : Group :=
  calls.foldl (fun g c => { g with props := c.run asc g.props }) (grp l)

theorem setGrp_built (calls : List PropCall) (l : List Package) : GroupBuilt asc (setGrp calls l) := by
  have : ∀ (calls : List PropCall) (g : Group), GroupBuilt asc g →
      GroupBuilt asc (calls.foldl (fun g c => { g with props := c.run asc g.props }) g) := by
    intro calls
    induction calls with
    | nil => exact fun _ h => h
    | cons c cs ih => exact fun g h => ih _ (.prop c h)
  exact this calls _ (grp_built l)

/-- A document with one group. -/
def oneDoc (g : Group) : Doc := newDoc.setObj asc groupsSlot (some [g])

theorem oneDoc_built {g : Group} (h : GroupBuilt asc g) : DocBuilt asc (oneDoc g) :=
  .call (.setGroups (some [g])) (by simp [DocCall.Good, h]) newDoc_built rfl

/-- `comps_doc_cmp`; documents it fails on are not the same. -/
def sameDoc (d d' : Doc) : Bool :=
  match d.cmp asc d' with
  | .ok b => b
  | .error _ => false

/-- The setter calls for the texts of a group. -/
def texts (desc : Bytes) : List PropCall :=
  [.str .id (some b!"g"), .str .name (some b!"G"), .str .desc (some desc)]

/-- The setter calls for the flags of a group. -/
def flags : List PropCall :=
  [.num .dflt 0 false, .num .uservisible 1 false, .num .biarchonly 0 false]

/-- The written group. -/
def grpTree (desc : Bytes) (ptype : Bytes) (attrs : List (Bytes × Bytes)) : List Tree :=
  [.elem b!"group" [] [.elem b!"id" [] [.text b!"g"], .elem b!"name" [] [.text b!"G"],
    .elem b!"description" [] [.text desc],
    .elem b!"packagelist" [] [.elem b!"packagereq" ((b!"type", ptype) :: attrs) [.text b!"p"]]]]

/-- A complete group comes back. -/
example : trip asc lines .standard sameDoc
    (oneDoc (setGrp (texts b!"D" ++ flags) [pkg b!"p" b!"q"]))
    (grpTree b!"D" b!"mandatory" [(b!"requires", b!"q")]) = some true := by decide +kernel

/-- C28 is false without the condition on types: the type of a new package is unknown, is written as
"default", and comes back so. -/
theorem C28_false_type : ∃ d, DocBuilt asc d ∧
    Lost asc (fun l => l.length ≤ 1) .standard sameDoc d :=
  ⟨oneDoc (setGrp (texts b!"D" ++ flags) [{ Package.create with name := some (cs b!"p") }]),
    oneDoc_built (setGrp_built _ _),
    lost_of (cut := whole) (grpTree b!"D" b!"default" []) whole_flatten whole_one (by decide +kernel)⟩

/-- C28 is false for texts with newlines: expat delivers them as pieces of their own, and pieces of
white space are dropped. -/
theorem C28_false_newline : ∃ d, DocBuilt asc d ∧
    Lost asc (fun l => ∀ s ∈ l, s = [10] ∨ (10 : UInt8) ∉ s) .standard sameDoc d :=
  ⟨oneDoc (setGrp (texts [97, 10, 98] ++ flags) [pkg b!"p" b!"q"]),
    oneDoc_built (setGrp_built _ _),
    lost_of (cut := lines) (grpTree [97, 10, 98] b!"mandatory" [(b!"requires", b!"q")]) lines_flatten
      lines_pieces (by decide +kernel)⟩

/-- C28 is false for empty texts: they come back as no text. -/
theorem C28_false_empty : ∃ d, DocBuilt asc d ∧
    Lost asc (fun l => l.length ≤ 1) .standard sameDoc d :=
  ⟨oneDoc (setGrp (texts [] ++ flags) [pkg b!"p" b!"q"]), oneDoc_built (setGrp_built _ _),
    lost_of (cut := whole) (grpTree [] b!"mandatory" [(b!"requires", b!"q")]) whole_flatten whole_one
      (by decide +kernel)⟩

/-- C28 is false for groups whose flags were never set: the flags come back set to the defaults, and
the groups do not compare equal. -/
theorem C28_false_flags : ∃ d, DocBuilt asc d ∧
    Lost asc (fun l => l.length ≤ 1) .standard sameDoc d :=
  ⟨oneDoc (setGrp (texts b!"D") [pkg b!"p" b!"q"]), oneDoc_built (setGrp_built _ _),
    lost_of (cut := whole) (grpTree b!"D" b!"mandatory" [(b!"requires", b!"q")]) whole_flatten whole_one
      (by decide +kernel)⟩

/-- The base architecture flags of the packages of the first group. -/
def baos (d : Doc) : Option (List (Option Int)) :=
  match d.getObj asc groupsSlot with
  | .ok (g :: _, _) => g.packages.map fun l => l.map (·.basearchonly)
  | _ => none

/-- C28 is false for a base architecture flag of 0: asked to write it, the library writes "true". -/
theorem C28_false_basearchonly : ∃ d, DocBuilt asc d ∧ baos d = some [some 0] ∧
    Lost asc (fun l => l.length ≤ 1) { Options.standard with baoExplicit := true }
      (fun a b => baos a == baos b) d :=
  ⟨oneDoc (setGrp (texts b!"D" ++ flags) [{ pkg b!"p" b!"q" with basearchonly := some 0 }]),
    oneDoc_built (setGrp_built _ _), by decide +kernel,
    lost_of (cut := whole) (grpTree b!"D" b!"mandatory" [(b!"requires", b!"q"),
      (b!"basearchonly", b!"true")]) whole_flatten whole_one (by decide +kernel)⟩

/-- The objects under a key of the black list. -/
def black (k : Bytes) (d : Doc) : List CStr :=
  match d.getObj asc blacklistSlot with
  | .ok (t, _) => objects (MTree.get t k)
  | .error _ => []

/-- A document with a black list. -/
def blackDoc : Doc :=
  newDoc.setObj asc blacklistSlot (some (mrun [(b!"ab", cs b!"x"), (b!"ac", cs b!"y")]))

/-- C28 is false for black lists with names that begin alike: the entry "x" comes back as "[x]". -/
theorem C28_false_blacklist : ∃ d, DocBuilt asc d ∧ black b!"ab" d = [cs b!"x"] ∧
    Lost asc (fun l => l.length ≤ 1) .standard (fun a b => black b!"ab" a == black b!"ab" b) d :=
  ⟨blackDoc, .call (.setBlacklist (some (mrun [(b!"ab", cs b!"x"), (b!"ac", cs b!"y")])))
      (by simp [DocCall.Good, mrun_reach]) newDoc_built rfl, by decide +kernel,
    lost_of (cut := whole) [.elem b!"blacklist" []
      [.elem b!"package" [(b!"name", b!"ab"), (b!"arch", b!"[x]")] [],
       .elem b!"package" [(b!"name", b!"ac"), (b!"arch", b!"y")] []]] whole_flatten whole_one
      (by decide +kernel)⟩

/-! ## A document that comes back -/

/-- A category made by calls of setters. -/
def setCat (calls : List PropCall) (l : List GroupId) : Category :=
  calls.foldl (fun g c => { g with props := c.run asc g.props }) (cat l)

theorem setCat_built (calls : List PropCall) (l : List GroupId) :
    CategoryBuilt asc (setCat calls l) := by
  have : ∀ (calls : List PropCall) (g : Category), CategoryBuilt asc g →
      CategoryBuilt asc (calls.foldl (fun g c => { g with props := c.run asc g.props }) g) := by
    intro calls
    induction calls with
    | nil => exact fun _ h => h
    | cons c cs ih => exact fun g h => ih _ (.prop c h)
  exact this calls _ (cat_built l)

/-- A group, a category with a display order, a language pack and an entry of the black list. -/
def fullCalls : List DocCall :=
  [.addGroup (setGrp (texts b!"D" ++ flags) [pkg b!"p" b!"q"]),
    .addCategory (setCat (texts b!"D" ++ [.num .displayOrder 7 false]) [gid b!"g" true]),
    .addLangpack b!"cs" (cs b!"x-%s"), .addBlacklist b!"p" (cs b!"x86_64")]

/-- Its content. -/
def fullContent : DocContent := fullCalls.foldl (DocCall.effect asc) noContent

theorem full_good : ∀ x ∈ fullCalls, x.Good asc := by
  simp [fullCalls, DocCall.Good, setGrp_built, setCat_built]

theorem full_plain : ∀ x ∈ fullCalls, (∀ s, x ≠ .doctypeName s) ∧ (∀ s, x ≠ .doctypeSysid s) ∧
    (∀ s, x ≠ .doctypePubid s) := by simp [fullCalls]

theorem get_empty {V : Type} (k : Bytes) : RTree.get (RTree.create : RTree V) k = none := by
  cases h : RTree.get (RTree.create : RTree V) k with
  | none => rfl
  | some v => cases (RTree.mem_pairs (Reachable.wf (lt := asc) .create) k v).2 h

theorem no_get (k : Bytes) (v : PVal) (h : RTree.create.get k = some v) : False := by
  rw [get_empty] at h; cases h

theorem full_trips : RoundTrips .standard fullContent := by
  refine ⟨?_, ?_, nofun, ?_, ?_, ?_⟩
  · intro g hg
    rw [List.mem_singleton.1 (show g ∈ [_] from hg)]
    refine ⟨rfl, ⟨?_, ?_, .inl rfl, fun k v h => (no_get k v h).elim, fun k v h => (no_get k v h).elim⟩, ?_, _, rfl, ?_⟩
    · intro k hk v hv
      simp only [List.mem_cons, List.not_mem_nil, or_false] at hk
      rcases hk with rfl | rfl | rfl | rfl <;> cases hv <;> exact ⟨_, rfl, _, rfl, by decide⟩
    · intro v hv; cases hv
    · intro k hk
      simp only [List.mem_cons, List.not_mem_nil, or_false] at hk
      rcases hk with rfl | rfl | rfl
      · exact .inl rfl
      · exact .inr rfl
      · exact .inl rfl
    · intro p hp
      rw [List.mem_singleton.1 hp]
      refine ⟨?_, ?_, by decide, .inl rfl, .inl rfl⟩
      · rintro _ ⟨⟩; exact ⟨_, rfl, by decide⟩
      · rintro _ ⟨⟩; exact ⟨_, rfl, by decide⟩
  · intro g hg
    rw [List.mem_singleton.1 (show g ∈ [_] from hg)]
    refine ⟨rfl, ⟨?_, ?_, .inl rfl, fun k v h => (no_get k v h).elim, fun k v h => (no_get k v h).elim⟩, ?_, _, rfl, ?_⟩
    · intro k hk v hv
      simp only [List.mem_cons, List.not_mem_nil, or_false] at hk
      rcases hk with rfl | rfl | rfl | rfl <;> cases hv <;> exact ⟨_, rfl, _, rfl, by decide⟩
    · intro v hv
      cases hv
      exact ⟨7, rfl, by decide, by decide⟩
    · intro k hk
      cases hv : (setCat (texts b!"D" ++ [.num .displayOrder 7 false]) [gid b!"g" true]).props.get k with
      | none => exact absurd hv hk
      | some v =>
        have hm := (RTree.mem_pairs (categoryBuilt_inv (setCat_built _ _)).props.wf _ _).2 hv
        have : (setCat (texts b!"D" ++ [.num .displayOrder 7 false])
            [gid b!"g" true]).props.pairs.all (fun e => entryKeys.contains e.1) = true := by
          decide +kernel
        simpa using List.all_eq_true.1 this _ hm
    · intro p hp
      rw [List.mem_singleton.1 hp]
      exact ⟨.inr ⟨_, rfl, _, rfl, by decide⟩, .inl rfl⟩
  · intro k v hv
    have hb : LangBuilt asc fullContent.langpacks := .set _ _ .create
    have hm := (RTree.mem_pairs (langBuilt_inv hb).wf _ _).2 hv
    rw [show fullContent.langpacks.pairs = [(b!"cs", .str (cs b!"x-%s"))] from rfl] at hm
    cases List.mem_singleton.1 hm
    exact ⟨_, rfl⟩
  · intro k vs hv
    have hb : MReach fullContent.blacklist := .set _ _ .create
    have hm := (RTree.mem_pairs (MTree.mreach_ok hb).wf _ _).2 hv
    rw [show RTree.pairs fullContent.blacklist = [(b!"p", [.one (cs b!"x86_64")])] from rfl] at hm
    cases List.mem_singleton.1 hm
    refine ⟨by simp, fun v hv => ?_⟩
    rw [List.mem_singleton.1 hv]
    exact ⟨_, rfl⟩
  · intro k vs hv
    have : RTree.get (MTree.create : MTree CStr) k = none := get_empty k
    cases (this.symm.trans hv)

/-- The document comes back when written to a file, without a message. -/
example : ∃ d st, DocBuilt asc d ∧ Shows asc d fullContent ∧ Silent .standard fullContent ∧
    toFile asc none none d (start (fun _ => false) d) = .ok (0, st) ∧
    RoundTrip asc (fun _ => []) .standard .standard d fullContent (st.calls.map (·.1)) := by
  obtain ⟨d, h1, h2, h3, h4⟩ := made' fullCalls full_good full_plain
  have hn : Counted fullContent := counted (lt := asc)
    ⟨⟨[(b!"cs", cs b!"x-%s")], rfl⟩, ⟨[(b!"p", cs b!"x86_64")], rfl⟩, ⟨[], rfl⟩⟩
  obtain ⟨st, k1, -, -, k2⟩ := (C28_partial h1 h4 h2 hn none none full_trips (fun _ => rfl)
    fun _ => []).1 h3
  refine ⟨d, st, h1, h4, ⟨?_, ?_, nofun⟩, k1, k2⟩
  · intro g hg
    rw [List.mem_singleton.1 (show g ∈ [_] from hg)]
    refine ⟨?_, nofun, ?_⟩
    · intro k hk
      simp only [List.mem_cons, List.not_mem_nil, or_false] at hk
      rcases hk with rfl | rfl | rfl <;> (intro h; cases h)
    · intro p hp
      rw [List.mem_singleton.1 (show p ∈ [_] from hp)]
      nofun
  · intro g hg
    rw [List.mem_singleton.1 (show g ∈ [_] from hg)]
    refine ⟨?_, nofun⟩
    intro k hk
    simp only [List.mem_cons, List.not_mem_nil, or_false] at hk
    rcases hk with rfl | rfl | rfl <;> (intro h; cases h)

end Comps.Props

section
open Comps.Props
#print axioms C28_partial
#print axioms C28_false_type
#print axioms C28_false_newline
#print axioms C28_false_empty
#print axioms C28_false_flags
#print axioms C28_false_basearchonly
#print axioms C28_false_blacklist
end
