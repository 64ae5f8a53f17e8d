import Verif.Lemmas.PyRound
import Verif.Props.PyComps
import Verif.Props.RoundTrip
import Verif.Props.ValidateDoc

/-!
# Python documents: writing and reading back, comparing (C96, C97)

`Transmits` (Spec/RoundTrip) stands for libxml2 and expat, as in C28.
-/

namespace Comps.Props.PyC
open Comps Comps.Obj Comps.Spec Comps.Spec.PyComps Comps.PyComps Comps.Props
open Comps.Parse (Ctx Chunk Parsed parseStr parseFile init)
open Comps.Xml (Options Defaults)

variable (lt : UInt8 → UInt8 → Bool)

/-! ## C96 writing and reading back -/

/-- The document `a` is the document with content `y` and entries `c` again. -/
def Again (st : PyComps.St) (a : Nat) (y : Content) (c : DocContent) : Prop :=
  ∃ y' c', answer lt st (.dump a) = .ok (.content y') ∧ Made lt y' c' ∧ SameContent c c' ∧
    y'.encoding = y.encoding ∧ y'.doctypeName = y.doctypeName ∧ y'.doctypeSysid = y.doctypeSysid ∧
    y'.doctypePubid = y.doctypePubid

theorem came_back {st : PyComps.St} {r : RSt} (g : Good st r) {a b : Nat} {d0 db : RDoc}
    (hd : r.doc a = some d0) (hb : r.doc b = some db) {o : Options} {c : DocContent}
    (hm : Made lt (look r db) c) (he : (look r db).encoding = some ⟨some b!"UTF-8"⟩)
    {n : Int} {p : Parsed} (hc : CameBack lt o ((look r db).toDoc lt) c (some b!"UTF-8") (n, p)) :
    ∃ r1, takeParsed r a p = .ok r1 ∧ ∀ st1, Good st1 r1 →
      Again lt st1 a (look r db) c ∧ answer lt st1 (.eq b (some a)) = .ok (.bool true) ∧
      answer lt st1 (.lastLog a) = .ok (.log p.log) := by
  obtain ⟨⟨d', c', k1, k2, k3, k4, k5, k6, k7, k8, -⟩, -, -⟩ := hc
  have k1 : p.doc = .live d' := k1
  obtain ⟨⟨dn, r0⟩, hq⟩ := takeDoc_ok (x := d') (fun s v => built_kinds k2 s) r p.log
  have ht : takeParsed r a p = .ok (r0.put a dn) := by
    simp only [takeParsed, k1, hq, bind, Except.bind]
    rfl
  refine ⟨_, ht, fun st1 g1 => ?_⟩
  obtain ⟨⟨xs, i1⟩, i2, i3, d, j1, j2, j3, -, -⟩ := takeParsed_facts hd ht
  have hcon : parsedContent p = contentOf d' := by simp only [parsedContent, k1]
  rw [hcon] at j2
  have hm' : Made lt (contentOf d') c' := by
    refine made_contentOf k2 k3 ⟨_, k8⟩ ?_ ?_ ?_
    · rw [k5]; exact hm.name
    · rw [k6]; exact hm.sysid
    · rw [k7]; exact hm.pubid
  have b' := made_built hm'
  refine ⟨⟨_, c', (dump_some g1).2 ⟨d, j1, rfl⟩, by rw [j2]; exact hm', k4, ?_, ?_, ?_, ?_⟩, ?_,
    (log_some g1).2 ⟨d, j1, j3⟩⟩
  · rw [j2]; exact k8.trans he.symm
  · rw [j2]; exact k5
  · rw [j2]; exact k6
  · rw [j2]; exact k7
  · by_cases hab : b = a
    · subst hab
      have hcmp := (C41_doc b'.1 b'.1 b'.1).1
      have e : rstep lt RDoc.shown (r0.put b dn) (.eq b (some b)) = .ok (.bool true, r0.put b dn) := by
        simp only [rstep, j1, j2, hcmp, bind, Except.bind]
        rfl
      obtain ⟨st2, e2, -⟩ := rstep_ok g1 e
      simp only [answer, e2]
      rfl
    · have hb1 : (r0.put a dn).doc b = some db := (i3 b hab).trans hb
      have hl : look (r0.put a dn) db = look r db := by
        simp only [look]
        congr 1
        funext s
        cases hs : db.part s with
        | none => rfl
        | some x =>
          obtain ⟨v, hv, -⟩ := g.wf.parts b db s x hb hs
          have : x < r.lists.length := (List.getElem?_eq_some_iff.1 hv).1
          have := value_append i1 this
          simp only [Option.bind_some, this]
      have bb := made_built hm
      have hcmp : Doc.cmp lt ((look r db).toDoc lt) ((contentOf d').toDoc lt) = .ok true :=
        same_cmp bb.1 b'.1 bb.2 b'.2 k4 k5 k6 k7 (he.trans k8.symm)
      have e : rstep lt RDoc.shown (r0.put a dn) (.eq b (some a)) =
          .ok (.bool true, r0.put a dn) := by
        simp only [rstep, hb1, j1, j2, hl, hcmp, bind, Except.bind]
        rfl
      obtain ⟨st2, e2, -⟩ := rstep_ok g1 e
      simp only [answer, e2]
      rfl

/-- **C96, partial.**  `a.fromxml_str(b.xml_str())` makes `a` the document `b` again, and `a == b`, for
documents that meet the conditions of C28 and have the encoding UTF-8, if no call of the libxml2 writer
fails.  `b.get_last_log()` is as before, and if all entries have a name, `a.get_last_log()` is empty.
Missing: documents for which C28 is false. -/
theorem C96_str_partial {ops : List Op} {as : List Ans} {st : PyComps.St}
    (h : run lt start ops = .ok (as, st)) {a b : Nat} {y z : Content} {c : DocContent}
    (hy : answer lt st (.dump b) = .ok (.content y)) (hz : answer lt st (.dump a) = .ok (.content z))
    (hm : Made lt y c) (he : y.encoding = some ⟨some b!"UTF-8"⟩) (ht : DoctypeOk (y.toDoc lt))
    (hn : Counted c) (o : Option Options) (df : Option Defaults)
    (hr : RoundTrips (o.getD .standard) c) {fails : Nat → Bool} (hf : ∀ n, fails n = false)
    (extra : Bytes → List Bytes) :
    ∃ w st1, step lt st (.xmlStr b o df fails) = .ok (.xml w, st1) ∧ (∀ x ∈ w, x.2 = true) ∧
      answer lt st1 (.lastLog b) = answer lt st (.lastLog b) ∧
      (∃ dt root, Transmits NoBlank (w.map (·.1)) dt root) ∧
      ∀ dt root, Transmits NoBlank (w.map (·.1)) dt root → ∃ n st2,
        step lt st1 (.fromStr a (Reading.plain lt (df.getD .standard) extra).ctx
          ⟨fileEvents dt root, none⟩) = .ok (.num n, st2) ∧ (n = 0 ∨ n = 1) ∧
        Again lt st2 a y c ∧ answer lt st2 (.eq b (some a)) = .ok (.bool true) ∧
        (Silent (o.getD .standard) c → n = 0 ∧ answer lt st2 (.lastLog a) = .ok (.log [])) := by
  obtain ⟨r, -, g⟩ := reach h
  obtain ⟨db, hb, rfl⟩ := (dump_some g).1 hy
  obtain ⟨d0, hd, -⟩ := (dump_some g).1 hz
  obtain ⟨hbt, hsh⟩ := made_built hm
  obtain ⟨w, e1, e2, e3, e4⟩ := (C28_partial hbt hsh ht hn o df hr hf extra).2
  have s1 : rstep lt RDoc.shown r (.xmlStr b o df fails) =
      .ok (.xml w.calls, r.put b { db with log := db.log ++ w.log }) := by
    simp only [rstep, hb, xmlStr, e1, bind, Except.bind]
    rfl
  rw [e2, List.append_nil] at s1
  obtain ⟨st1, t1, g1⟩ := rstep_ok g s1
  have hb1 : (r.put b db).doc b = some db := doc_put_self hb
  have hd1 : ∃ d1, (r.put b db).doc a = some d1 := by
    by_cases hab : a = b
    · subst hab
      exact ⟨_, hb1⟩
    · exact ⟨_, (doc_put_ne hab).trans hd⟩
  obtain ⟨d1, hd1⟩ := hd1
  refine ⟨w.calls, st1, t1, e3, ?_, e4.arrives, fun dt root htr => ?_⟩
  · unfold answer
    rw [log_ans g, log_ans g1, hb1, hb]
  · obtain ⟨⟨n, p⟩, q1, q2⟩ := e4.str dt root htr (some b!"UTF-8")
    obtain ⟨r2, t2, t3⟩ := came_back lt g1 hd1 hb1 hm he q2
    have hne : n ≠ -1 := by
      rcases q2.result with hn | hn <;> (simp only at hn; omega)
    have s2 : rstep lt RDoc.shown (r.put b db) (.fromStr a
        (Reading.plain lt (df.getD .standard) extra).ctx ⟨fileEvents dt root, none⟩) =
        .ok (.num n, r2) := by
      simp only [rstep, hd1, q1, if_neg hne, t2, bind, Except.bind]
      rfl
    obtain ⟨st2, u2, g2⟩ := rstep_ok g1 s2
    obtain ⟨v1, v2, v3⟩ := t3 st2 g2
    exact ⟨n, st2, u2, q2.result, v1, v2, fun hq => ⟨(q2.silent hq).1, by
      rw [v3, show p.log = [] from (q2.silent hq).2]⟩⟩

/-- **C96, partial.**  The same through a file: `b.xml_f(name)` returns no messages, and after
`a.fromxml_f(name)` the document `a` is `b`, in whatever pieces the file is read. -/
theorem C96_file_partial {ops : List Op} {as : List Ans} {st : PyComps.St}
    (h : run lt start ops = .ok (as, st)) {a b : Nat} {y z : Content} {c : DocContent}
    (hy : answer lt st (.dump b) = .ok (.content y)) (hz : answer lt st (.dump a) = .ok (.content z))
    (hm : Made lt y c) (he : y.encoding = some ⟨some b!"UTF-8"⟩) (ht : DoctypeOk (y.toDoc lt))
    (hn : Counted c) (o : Option Options) (df : Option Defaults)
    (hr : RoundTrips (o.getD .standard) c) {fails : Nat → Bool} (hf : ∀ n, fails n = false)
    (extra : Bytes → List Bytes) (name : Bytes) :
    ∃ w st1, Xml.toFile lt o df (y.toDoc lt) (Xml.start fails (y.toDoc lt)) = .ok (0, w) ∧
      step lt st (.xmlFile b name o df fails true) = .ok (.log [], st1) ∧
      (∀ x ∈ w.calls, x.2 = true) ∧
      (∃ dt root, Transmits NoBlank (w.calls.map (·.1)) dt root) ∧
      ∀ dt root, Transmits NoBlank (w.calls.map (·.1)) dt root → ∀ cs : List Chunk,
        (∀ c ∈ cs, c.error = none) → cs.flatMap (·.events) = fileEvents dt root → ∃ n st2,
        step lt st1 (.fromFile a (Reading.plain lt (df.getD .standard) extra).ctx (some cs)) =
          .ok (.num n, st2) ∧ (n = 0 ∨ n = 1) ∧
        Again lt st2 a y c ∧ answer lt st2 (.eq b (some a)) = .ok (.bool true) ∧
        (Silent (o.getD .standard) c → n = 0 ∧ answer lt st2 (.lastLog a) = .ok (.log [])) := by
  obtain ⟨r, -, g⟩ := reach h
  obtain ⟨db, hb, rfl⟩ := (dump_some g).1 hy
  obtain ⟨d0, hd, -⟩ := (dump_some g).1 hz
  obtain ⟨hbt, hsh⟩ := made_built hm
  obtain ⟨w, e1, e2, e3, e4⟩ := (C28_partial hbt hsh ht hn o df hr hf extra).1 rfl
  have hE : db.encoding = some ⟨some b!"UTF-8"⟩ := he
  have hw : withEncoding db.encoding = db.encoding := by rw [hE]; rfl
  have hlk : { look r db with encoding := withEncoding (look r db).encoding } = look r db := by
    rw [show (look r db).encoding = db.encoding from rfl, hw]
    rfl
  have s1 : rstep lt RDoc.shown r (.xmlFile b name o df fails true) =
      .ok (.log [], r.put b { db with log := [] }) := by
    simp only [rstep, hb, xmlFile, hlk, e1, e2, bind, Except.bind, hw]
    rfl
  obtain ⟨st1, t1, g1⟩ := rstep_ok g s1
  have hb1 : (r.put b { db with log := [] }).doc b = some { db with log := [] } := doc_put_self hb
  have hd1 : ∃ d1, (r.put b { db with log := [] }).doc a = some d1 := by
    by_cases hab : a = b
    · subst hab
      exact ⟨_, hb1⟩
    · exact ⟨_, (doc_put_ne hab).trans hd⟩
  obtain ⟨d1, hd1⟩ := hd1
  refine ⟨w, st1, e1, t1, e3, e4.arrives, fun dt root htr cs hcs hev => ?_⟩
  obtain ⟨⟨n, p⟩, q1, q2⟩ := e4.file dt root htr (some b!"UTF-8") cs hcs hev
  obtain ⟨r2, t2, t3⟩ := came_back lt g1 hd1 hb1 hm he q2
  have hne : n ≠ -1 := by
    rcases q2.result with hn | hn <;> (simp only at hn; omega)
  have s2 : rstep lt RDoc.shown (r.put b { db with log := [] }) (.fromFile a
      (Reading.plain lt (df.getD .standard) extra).ctx (some cs)) = .ok (.num n, r2) := by
    simp only [rstep, hd1, q1, if_neg hne, t2, bind, Except.bind]
    rfl
  obtain ⟨st2, u2, g2⟩ := rstep_ok g1 s2
  obtain ⟨v1, v2, v3⟩ := t3 st2 g2
  exact ⟨n, st2, u2, q2.result, v1, v2, fun hq => ⟨(q2.silent hq).1, by
    rw [v3, show p.log = [] from (q2.silent hq).2]⟩⟩

/-- For the examples: a program that makes two documents and fills the first: a group with a package, a
category, a language pack and an entry of the black list. -/
def fullOps : List Op :=
  [.new b!"UTF-8", .new b!"UTF-8", .get 0 .groups, .write 0 (.groups fullContent.groups),
    .get 0 .categories, .write 1 (.cats fullContent.categories),
    .get 0 .langpacks, .write 2 (.dict fullContent.langpacks),
    .get 0 .blacklist, .write 3 (.mdict fullContent.blacklist)]

theorem full_run : ∃ as st y z, run asc start fullOps = .ok (as, st) ∧
    answer asc st (.dump 0) = .ok (.content y) ∧ answer asc st (.dump 1) = .ok (.content z) ∧
    Made asc y fullContent ∧ y.encoding = some ⟨some b!"UTF-8"⟩ ∧ DoctypeOk (y.toDoc asc) ∧
    Counted fullContent := by
  obtain ⟨d, h1, h2, h3, h4⟩ := made' fullCalls full_good full_plain
  obtain ⟨x1, x2, x3, x4, x5, x6⟩ := contents_built (docBuilt_inv h1)
  rw [← shows_unique h4 (shows_content (docBuilt_inv h1))] at x1 x2 x3 x4 x5 x6
  have hn : Counted fullContent := counted (lt := asc)
    ⟨⟨[(b!"cs", cs b!"x-%s")], rfl⟩, ⟨[(b!"p", cs b!"x86_64")], rfl⟩, ⟨[], rfl⟩⟩
  exact ⟨_, _, _, _, rfl, rfl, rfl,
    ⟨⟨_, rfl⟩, ⟨_, rfl⟩, ⟨_, rfl⟩, ⟨_, rfl⟩, ⟨rfl, x1⟩, ⟨rfl, x2⟩, ⟨rfl, x3⟩, ⟨rfl, x4⟩, ⟨rfl, x5⟩,
      ⟨rfl, x6⟩⟩, rfl, ⟨⟨_, rfl, by decide⟩, ⟨_, rfl⟩, ⟨_, rfl⟩, nofun⟩, hn⟩

/-- It comes back. -/
example : ∃ as st w st1, run asc start fullOps = .ok (as, st) ∧
    step asc st (.xmlStr 0 none none fun _ => false) = .ok (.xml w, st1) ∧
    ∃ dt root n st2, step asc st1 (.fromStr 1 (Reading.plain asc .standard fun _ => []).ctx
      ⟨fileEvents dt root, none⟩) = .ok (.num n, st2) ∧
      answer asc st2 (.eq 0 (some 1)) = .ok (.bool true) := by
  obtain ⟨as, st, y, z, h, hy, hz, hm, he, ht, hn⟩ := full_run
  obtain ⟨w, st1, k1, -, -, ⟨dt, root, k2⟩, k3⟩ := C96_str_partial asc h hy hz hm he ht hn none none
    full_trips (fails := fun _ => false) (fun _ => rfl) fun _ => []
  obtain ⟨n, st2, j1, -, -, j2, -⟩ := k3 dt root k2
  exact ⟨as, st, w, st1, h, k1, dt, root, n, st2, j1, j2⟩

example : ∃ as st st1, run asc start fullOps = .ok (as, st) ∧
    step asc st (.xmlFile 0 b!"f" none none (fun _ => false) true) = .ok (.log [], st1) := by
  obtain ⟨as, st, y, z, h, hy, hz, hm, he, ht, hn⟩ := full_run
  obtain ⟨w, st1, -, k1, -⟩ := C96_file_partial asc h hy hz hm he ht hn none none
    full_trips (fails := fun _ => false) (fun _ => rfl) (fun _ => []) b!"f"
  exact ⟨as, st, st1, h, k1⟩

/-! ## C97 comparing documents -/

/-- What two Python documents that compare equal have in common. -/
structure SamePy (y z : Content) (cy cz : DocContent) : Prop where
  encoding : y.encoding = z.encoding
  name : y.doctypeName = z.doctypeName
  sysid : y.doctypeSysid = z.doctypeSysid
  pubid : y.doctypePubid = z.doctypePubid
  groups : Alike (fun a b : Group => a.cmp b = true) cy.groups cz.groups
  categories : Alike (fun a b : Category => a.cmp b = true) cy.categories cz.categories
  environments : Alike (fun a b : Env => a.cmp b = true) cy.environments cz.environments
  langpacks : SameDict cy.langpacks cz.langpacks
  blacklist : ∀ k, (MTree.get cy.blacklist k).isSome = (MTree.get cz.blacklist k).isSome
  whiteout : ∀ k, (MTree.get cy.whiteout k).isSome = (MTree.get cz.whiteout k).isSome

/-- **C97, partial.**  `a == b` always answers, and says `True` exactly if encoding, document type and
language packs are the same, the entries compare equal one by one, and black list and whiteout have the
same keys.  Missing: their values (`C97_false`). -/
theorem C97_partial {ops : List Op} {as : List Ans} {st : PyComps.St}
    (h : run lt start ops = .ok (as, st)) {a b : Nat} {y z : Content} {cy cz : DocContent}
    (hy : answer lt st (.dump a) = .ok (.content y)) (hz : answer lt st (.dump b) = .ok (.content z))
    (my : Made lt y cy) (mz : Made lt z cz) :
    ∃ v, answer lt st (.eq a (some b)) = .ok (.bool v) ∧ (v = true ↔ SamePy y z cy cz) := by
  obtain ⟨r, -, g⟩ := reach h
  obtain ⟨da, ha, rfl⟩ := (dump_some g).1 hy
  obtain ⟨db, hb, rfl⟩ := (dump_some g).1 hz
  obtain ⟨b1, s1⟩ := made_built my
  obtain ⟨b2, s2⟩ := made_built mz
  obtain ⟨v, e, hv⟩ := C41_doc_meaning b1 b2 s1 s2
  have s : rstep lt RDoc.shown r (.eq a (some b)) = .ok (.bool v, r) := by
    simp only [rstep, ha, hb, e, bind, Except.bind]
    rfl
  obtain ⟨st1, t1, -⟩ := rstep_ok g s
  refine ⟨v, by simp only [answer, t1]; rfl, hv.trans ⟨?_, ?_⟩⟩
  · rintro ⟨h1, h2, h3, h4, h5, h6, h7, h8, h9, h10⟩
    exact ⟨h1, h2, h3, h4, h5, h6, h7, h8, h9, h10⟩
  · rintro ⟨h1, h2, h3, h4, h5, h6, h7, h8, h9, h10⟩
    exact ⟨h1, h2, h3, h4, h5, h6, h7, h8, h9, h10⟩

/-- **C97.**  `==` is an equivalence. -/
theorem C97_laws {ops : List Op} {as : List Ans} {st : PyComps.St}
    (h : run lt start ops = .ok (as, st)) {a b c : Nat} {x y z : Content} {cx cy cz : DocContent}
    (hx : answer lt st (.dump a) = .ok (.content x)) (hy : answer lt st (.dump b) = .ok (.content y))
    (hz : answer lt st (.dump c) = .ok (.content z))
    (mx : Made lt x cx) (my : Made lt y cy) (mz : Made lt z cz) :
    answer lt st (.eq a (some a)) = .ok (.bool true) ∧
    (answer lt st (.eq a (some b)) = .ok (.bool true) → answer lt st (.eq b (some a)) = .ok (.bool true)) ∧
    (answer lt st (.eq a (some b)) = .ok (.bool true) → answer lt st (.eq b (some c)) = .ok (.bool true) →
      answer lt st (.eq a (some c)) = .ok (.bool true)) := by
  obtain ⟨r, -, g⟩ := reach h
  obtain ⟨da, ha, rfl⟩ := (dump_some g).1 hx
  obtain ⟨db, hb, rfl⟩ := (dump_some g).1 hy
  obtain ⟨dc, hc, rfl⟩ := (dump_some g).1 hz
  have key : ∀ {i j : Nat} {di dj : RDoc} {ci cj : DocContent}, r.doc i = some di → r.doc j = some dj →
      Made lt (look r di) ci → Made lt (look r dj) cj →
      (answer lt st (.eq i (some j)) = .ok (.bool true) ↔
        Doc.cmp lt ((look r di).toDoc lt) ((look r dj).toDoc lt) = .ok true) := by
    intro i j di dj ci cj hi hj mi mj
    obtain ⟨b1, s1⟩ := made_built mi
    obtain ⟨b2, s2⟩ := made_built mj
    obtain ⟨v, e, -⟩ := C41_doc_meaning b1 b2 s1 s2
    have s : rstep lt RDoc.shown r (.eq i (some j)) = .ok (.bool v, r) := by
      simp only [rstep, hi, hj, e, bind, Except.bind]
      rfl
    obtain ⟨st1, t1, -⟩ := rstep_ok g s
    have : answer lt st (.eq i (some j)) = .ok (.bool v) := by simp only [answer, t1]; rfl
    rw [this, e]
    simp
  rw [key ha ha mx mx, key ha hb mx my, key hb ha my mx, key hb hc my mz, key ha hc mx mz]
  exact C41_doc (made_built mx).1 (made_built my).1 (made_built mz).1

/-- For `C97_false`: a black list with one entry. -/
def listed (v : Bytes) : DocVal := .mdict (MTree.set MTree.create b!"p" (cs v))

/-- **C97, false.**  Two documents with different entries for a package in the black list are equal. -/
theorem C97_false : ∃ y z, answers asc start [.new b!"UTF-8", .get 0 .blacklist, .write 0 (listed b!"i386"),
    .new b!"UTF-8", .get 1 .blacklist, .write 1 (listed b!"x86_64"), .dump 0, .dump 1, .eq 0 (some 1)] =
    .ok [.comps, .view, .done, .comps, .view, .done, .content y, .content z, .bool true] ∧
    y.part .blacklist = listed b!"i386" ∧ z.part .blacklist = listed b!"x86_64" ∧
    MTree.get (MTree.set MTree.create b!"p" (cs b!"i386")) b!"p" = some [.one (cs b!"i386")] ∧
    MTree.get (MTree.set MTree.create b!"p" (cs b!"x86_64")) b!"p" = some [.one (cs b!"x86_64")] :=
  ⟨_, _, rfl, rfl, rfl, rfl, rfl⟩

example : ∃ as st v, run asc start fullOps = .ok (as, st) ∧
    answer asc st (.eq 0 (some 0)) = .ok (.bool v) ∧ v = true := by
  obtain ⟨as, st, y, z, h, hy, hz, hm, he, ht, hn⟩ := full_run
  exact ⟨as, st, true, h, (C97_laws asc h hy hy hy hm hm hm).1, rfl⟩

/-! ## Messages of `validate_nf` (C138 in Props/PyTyped) -/

/-- `validate_nf()` gives all complaints about a document whose lists exist, in order, and nothing else. -/
theorem validateNf_says {ops : List Op} {as : List Ans} {st : PyComps.St}
    (h : run lt start ops = .ok (as, st)) {a : Nat} {y : Content} {c : DocContent}
    (hy : answer lt st (.dump a) = .ok (.content y)) (my : Made lt y c) (hl : Listed c) :
    ∃ num : Nat → Bytes, (∀ n, IsDec n (num n)) ∧
      answer lt st (.validateNf a) = .ok (.msgs ((docReport num c).map (·.2))) := by
  obtain ⟨r, -, g⟩ := reach h
  obtain ⟨d, hd, rfl⟩ := (dump_some g).1 hy
  obtain ⟨b1, s1⟩ := made_built my
  obtain ⟨num, hn, v, e, hv⟩ := C61_partial b1 s1 hl
  refine ⟨num, hn, ?_⟩
  have s : rstep lt RDoc.shown r (.validateNf a) = .ok (validateNfAns v, r) := by
    simp only [rstep, hd, e, bind, Except.bind]
    rfl
  obtain ⟨st1, t1, -⟩ := rstep_ok g s
  simp only [answer, t1]
  cases v with
  | ok => rw [show docReport num c = [] from hv]; rfl
  | err es =>
    obtain ⟨-, hv⟩ := hv
    rw [← hv]
    simp only [validateNfAns, List.map_map]
    rfl

/-- For the example: a document with a group without an id that has a package twice. -/
def badOps : List Op := [.new b!"UTF-8", .get 0 .groups,
  .write 0 (.groups [(Group.create.addPackage Package.create).addPackage Package.create])]

/-- For the example: its contents. -/
def badContent : DocContent := ⟨[(Group.create.addPackage Package.create).addPackage Package.create], [], [],
  RTree.create, MTree.create, MTree.create⟩

example : ∃ as st num, run asc start badOps = .ok (as, st) ∧
    answer asc st (.validateNf 0) = .ok (.msgs ((docReport num badContent).map (·.2))) ∧
    (docReport num badContent).length = 2 := by
  obtain ⟨num, -, k⟩ := validateNf_says asc (ops := badOps) (a := 0) (c := badContent) rfl rfl
    ⟨⟨_, rfl⟩, ⟨_, rfl⟩, ⟨_, rfl⟩, ⟨_, rfl⟩,
      ⟨rfl, by intro g hg; rw [List.mem_singleton.1 hg]; exact .add _ (.add _ .create)⟩,
      ⟨rfl, by simp [badContent]⟩, ⟨rfl, by simp [badContent]⟩, ⟨rfl, .create⟩, ⟨rfl, .create⟩,
      ⟨rfl, .create⟩⟩
    ⟨by intro g hg; rw [List.mem_singleton.1 hg]; exact ⟨_, rfl, by decide⟩, by simp [badContent],
      by simp [badContent], by simp [badContent]⟩
  exact ⟨_, _, num, rfl, k, rfl⟩

/-! ## Axioms -/

#print axioms C96_str_partial
#print axioms C96_file_partial
#print axioms C97_partial
#print axioms C97_laws
#print axioms C97_false

end Comps.Props.PyC
