import Verif.Props.PyMade
import Verif.Props.Respect

/-!
# Sums of Python documents (C173, C174, C175)

`a + b` is the call `union a b`; the new document has the number `st.docs.length`.
-/

namespace Comps.Props.PyC
open Comps Comps.Obj Comps.Spec Comps.Spec.PyComps Comps.PyComps Comps.Props

variable (lt : UInt8 → UInt8 → Bool)

theorem run_snoc : ∀ (pre : List Op) {s as st}, run lt s pre = .ok (as, st) → ∀ {o a st'},
    step lt st o = .ok (a, st') → run lt s (pre ++ [o]) = .ok (as ++ [a], st') := by
  intro pre
  induction pre with
  | nil =>
    intro s as st h o a st' hs
    cases h
    simp only [List.nil_append, run, hs, bind, Except.bind]
    rfl
  | cons x xs ih =>
    intro s as st h o a st' hs
    simp only [List.cons_append, run, bind, Except.bind] at h ⊢
    cases e : step lt s x with
    | error f => simp only [e] at h; cases h
    | ok q =>
      obtain ⟨b, s1⟩ := q
      simp only [e] at h ⊢
      cases e' : run lt s1 xs with
      | error f => simp only [e'] at h; cases h
      | ok q' =>
        obtain ⟨bs, s2⟩ := q'
        simp only [e'] at h
        cases h
        simp only [ih e' hs]
        rfl

/-- `a + b` in a program. -/
theorem plus {ops : List Op} {as : List Ans} {st : PyComps.St} (hn : ∀ o ∈ ops, NativeOp lt o)
    (h : run lt start ops = .ok (as, st)) {a b : Nat} {y z : Content} (hy : Holds lt st a y)
    (hz : Holds lt st b z) :
    ∃ st' x, step lt st (.union a b) = .ok (.comps, st') ∧
      Doc.union lt (y.toDoc lt) (z.toDoc lt) = .ok x ∧ Holds lt st' st.docs.length (contentOf x) ∧
      (∀ c w, Holds lt st c w → Holds lt st' c w) ∧
      (∃ as', run lt start (ops ++ [.union a b]) = .ok (as', st')) ∧
      ∀ o ∈ ops ++ [.union a b], NativeOp lt o := by
  obtain ⟨ans, st', hs⟩ := C140_call_partial lt hn h (o := .union a b) trivial (fun h => h)
  have hans : ans ≠ .exc .nameError := by
    rintro rfl
    obtain ⟨r, -, g⟩ := reach h
    obtain ⟨r', e, -⟩ := step_ok g hs
    obtain ⟨da, ha, -⟩ := (dump_some g).1 hy
    obtain ⟨db, hb, -⟩ := (dump_some g).1 hz
    simp only [rstep, ha, hb, bind, Except.bind] at e
    split at e
    · cases e
    · simp only [addDoc, bind, Except.bind] at e
      split at e <;> cases e
  obtain ⟨rfl, y1, y2, x, h1, h2, h3, h4, -⟩ := C95_union lt h hs hans
  have e1 := h1.symm.trans hy
  have e2 := h2.symm.trans hz
  injection e1 with e1; injection e1 with e1; subst e1
  injection e2 with e2; injection e2 with e2; subst e2
  refine ⟨st', x, hs, h3, h4, (C94_looking lt h rfl hs).1, ⟨_, run_snoc lt ops h hs⟩, fun o ho => ?_⟩
  rcases List.mem_append.1 ho with q | q
  · exact hn o q
  · rw [List.mem_singleton.1 q]; trivial

/-- `a == b` answers only if both are documents. -/
theorem eq_holds {ops : List Op} {as : List Ans} {st : PyComps.St} (h : run lt start ops = .ok (as, st))
    {a b : Nat} {v : Bool} (e : answer lt st (.eq a (some b)) = .ok (.bool v)) :
    ∃ y z, Holds lt st a y ∧ Holds lt st b z := by
  obtain ⟨r, -, g⟩ := reach h
  simp only [answer] at e
  cases hs : step lt st (.eq a (some b)) with
  | error f => rw [hs] at e; cases e
  | ok q =>
    obtain ⟨w, st'⟩ := q
    rw [hs] at e
    cases e
    obtain ⟨r', e', -⟩ := step_ok g hs
    simp only [rstep] at e'
    cases ha : r.doc a with
    | none => simp only [ha] at e'; cases e'
    | some da =>
      cases hb : r.doc b with
      | none => simp only [ha, hb] at e'; cases e'
      | some db => exact ⟨_, _, (dump_some g).2 ⟨da, ha, rfl⟩, (dump_some g).2 ⟨db, hb, rfl⟩⟩

/-- `a == b` says what comparing the documents of the C library says. -/
theorem eq_cmp {ops : List Op} {as : List Ans} {st : PyComps.St} (h : run lt start ops = .ok (as, st))
    {a b : Nat} {y z : Content} (hy : Holds lt st a y) (hz : Holds lt st b z) {v : Bool}
    (hv : Doc.cmp lt (y.toDoc lt) (z.toDoc lt) = .ok v) :
    answer lt st (.eq a (some b)) = .ok (.bool v) := by
  obtain ⟨r, -, g⟩ := reach h
  obtain ⟨da, ha, rfl⟩ := (dump_some g).1 hy
  obtain ⟨db, hb, rfl⟩ := (dump_some g).1 hz
  have s : rstep lt RDoc.shown r (.eq a (some b)) = .ok (.bool v, r) := by
    simp only [rstep, ha, hb, hv, bind, Except.bind]
    rfl
  obtain ⟨st1, t1, -⟩ := rstep_ok g s
  simp only [answer, t1]
  rfl

theorem eq_true {ops : List Op} {as : List Ans} {st : PyComps.St} (h : run lt start ops = .ok (as, st))
    {a b : Nat} {y z : Content} (hy : Holds lt st a y) (hz : Holds lt st b z) {cy cz : DocContent}
    (my : Made lt y cy) (mz : Made lt z cz) (e : answer lt st (.eq a (some b)) = .ok (.bool true)) :
    Doc.cmp lt (y.toDoc lt) (z.toDoc lt) = .ok true := by
  obtain ⟨v, hv, -⟩ := C41_doc_meaning (made_built my).1 (made_built mz).1 (made_built my).2
    (made_built mz).2
  have := (eq_cmp lt h hy hz hv).symm.trans e
  injection this with this; injection this with this
  rw [hv, this]

/-- Documents of the C library that compare equal also do as Python documents. -/
theorem wrap_cmp {u v : Doc} (hu : DocBuilt lt u) (hv : DocBuilt lt v) {cu cv : DocContent}
    (mu : Made lt (contentOf u) cu) (mv : Made lt (contentOf v) cv) (h : u.cmp lt v = .ok true) :
    Doc.cmp lt ((contentOf u).toDoc lt) ((contentOf v).toDoc lt) = .ok true := by
  have iu := docBuilt_inv hu; have iv := docBuilt_inv hv
  have su := shows_content iu; have sv := shows_content iv
  obtain rfl := made_unique lt (made_contentOf hu su mu.encoding mu.name mu.sysid mu.pubid) mu
  obtain rfl := made_unique lt (made_contentOf hv sv mv.encoding mv.name mv.sysid mv.pubid) mv
  obtain ⟨r, e, hr⟩ := C41_doc_meaning hu hv su sv
  rw [e] at h
  cases h
  have s := hr.1 rfl
  obtain ⟨r', e', hr'⟩ := C41_doc_meaning (made_built mu).1 (made_built mv).1 (made_built mu).2
    (made_built mv).2
  rw [e', hr'.2 ⟨s.encoding, s.name, s.sysid, s.pubid, s.groups, s.categories, s.environments,
    s.langpacks, s.blacklist, s.whiteout⟩]

/-- **C173.**  In every program that Python can write: if `a == a2` and `b == b2` then both sums can be
made, and `a + b == a2 + b2`. -/
theorem C173_sums {ops : List Op} {as : List Ans} {st : PyComps.St} (hn : ∀ o ∈ ops, NativeOp lt o)
    (h : run lt start ops = .ok (as, st)) {a a2 b b2 : Nat}
    (e1 : answer lt st (.eq a (some a2)) = .ok (.bool true))
    (e2 : answer lt st (.eq b (some b2)) = .ok (.bool true)) :
    ∃ st1 st2, step lt st (.union a b) = .ok (.comps, st1) ∧
      step lt st1 (.union a2 b2) = .ok (.comps, st2) ∧
      answer lt st2 (.eq st.docs.length (some st1.docs.length)) = .ok (.bool true) := by
  obtain ⟨y, y2, hy, hy2⟩ := eq_holds lt h e1
  obtain ⟨z, z2, hz, hz2⟩ := eq_holds lt h e2
  obtain ⟨cy, my, -⟩ := C140_made lt hn h hy
  obtain ⟨cy2, my2, -⟩ := C140_made lt hn h hy2
  obtain ⟨cz, mz, -⟩ := C140_made lt hn h hz
  obtain ⟨cz2, mz2, -⟩ := C140_made lt hn h hz2
  have k1 := eq_true lt h hy hy2 my my2 e1
  have k2 := eq_true lt h hz hz2 mz mz2 e2
  obtain ⟨st1, u, s1, x1, p1, w1, ⟨as1, r1⟩, n1⟩ := plus lt hn h hy hz
  obtain ⟨st2, v, s2, x2, p2, w2, ⟨as2, r2⟩, n2⟩ := plus lt n1 r1 (w1 _ _ hy2) (w1 _ _ hz2)
  obtain ⟨e, he⟩ := my.encoding
  have b1 := (made_built my).1; have b2 := (made_built my2).1
  have b3 := (made_built mz).1; have b4 := (made_built mz2).1
  obtain ⟨u', v', q1, q2, q3⟩ := C172_merge_docs_partial b1 b2 b3 b4 (e := e) he k1 k2
  rw [x1] at q1; rw [x2] at q2
  cases q1; cases q2
  obtain ⟨cu, mu, -⟩ := C140_made lt n1 r1 p1
  obtain ⟨cv, mv, -⟩ := C140_made lt n2 r2 p2
  exact ⟨st1, st2, s1, s2, eq_cmp lt r2 (w2 _ _ p1) p2
    (wrap_cmp lt (.union b1 b3 x1) (.union b2 b4 x2) mu mv q3)⟩

/-- The program has a document `a`, no two entries of a kind of which have one id. -/
def Distinct (st : PyComps.St) (a : Nat) : Prop :=
  ∃ y c, Holds lt st a y ∧ Made lt y c ∧ DistinctIds c

/-- **C174.**  In every program that Python can write, for documents in which no two entries of a kind
have one id: `(a + b) + c == a + (b + c)`, and all these sums can be made.  Missing: documents with two
entries of one id (`C174_false`). -/
theorem C174_partial {ops : List Op} {as : List Ans} {st : PyComps.St} (hn : ∀ o ∈ ops, NativeOp lt o)
    (h : run lt start ops = .ok (as, st)) {a b c : Nat} (da : Distinct lt st a) (db : Distinct lt st b)
    (dc : Distinct lt st c) :
    ∃ st1 st2 st3 st4, step lt st (.union a b) = .ok (.comps, st1) ∧
      step lt st1 (.union st.docs.length c) = .ok (.comps, st2) ∧
      step lt st2 (.union b c) = .ok (.comps, st3) ∧
      step lt st3 (.union a st2.docs.length) = .ok (.comps, st4) ∧
      answer lt st4 (.eq st1.docs.length (some st3.docs.length)) = .ok (.bool true) := by
  obtain ⟨x, cx, hx, mx, dx⟩ := da
  obtain ⟨y, cy, hy, my, dy⟩ := db
  obtain ⟨z, cz, hz, mz, dz⟩ := dc
  obtain ⟨st1, ab, s1, x1, p1, w1, ⟨as1, r1⟩, n1⟩ := plus lt hn h hx hy
  obtain ⟨st2, l, s2, x2, p2, w2, ⟨as2, r2⟩, n2⟩ := plus lt n1 r1 p1 (w1 _ _ hz)
  obtain ⟨st3, bc, s3, x3, p3, w3, ⟨as3, r3⟩, n3⟩ := plus lt n2 r2 (w2 _ _ (w1 _ _ hy))
    (w2 _ _ (w1 _ _ hz))
  obtain ⟨st4, r, s4, x4, p4, w4, ⟨as4, r4⟩, n4⟩ := plus lt n3 r3 (w3 _ _ (w2 _ _ (w1 _ _ hx))) p3
  refine ⟨st1, st2, st3, st4, s1, s2, s3, s4, ?_⟩
  obtain ⟨e, he⟩ := mx.encoding
  obtain ⟨e', he'⟩ := my.encoding
  have b1 := made_built mx; have b2 := made_built my; have b3 := made_built mz
  obtain ⟨cab, mab, -⟩ := C140_made lt n1 r1 p1
  obtain ⟨cbc, mbc, -⟩ := C140_made lt n3 r3 p3
  obtain ⟨cl, ml, -⟩ := C140_made lt n2 r2 p2
  obtain ⟨cr, mr, -⟩ := C140_made lt n4 r4 p4
  obtain ⟨ab', bc', l', r', _, _, q1, q2, q3, q4, -, -, -, q5⟩ :=
    C167_order_partial b1.1 b2.1 b3.1 (e := e) (e' := e') he he' b1.2 b2.2 b3.2 dx dy dz
  rw [x1] at q1; rw [x3] at q3
  cases q1; cases q3
  have bab := DocBuilt.union b1.1 b2.1 x1
  have bbc := DocBuilt.union b2.1 b3.1 x3
  have wab := made_built mab; have wbc := made_built mbc
  -- the Python object of `a + b` is a copy of the document merged by the C library
  have same : ∀ {u : Doc} {cu : DocContent}, DocBuilt lt u → Made lt (contentOf u) cu →
      u.cmp lt ((contentOf u).toDoc lt) = .ok true := by
    intro u cu hu mu
    have su := shows_content (docBuilt_inv hu)
    obtain rfl := made_unique lt (made_contentOf hu su mu.encoding mu.name mu.sysid mu.pubid) mu
    obtain ⟨v, e1, hv⟩ := C41_doc_meaning hu hu su su
    rw [(C41_doc hu hu hu).1] at e1
    cases e1
    have s := hv.1 rfl
    obtain ⟨v', e2, hv'⟩ := C41_doc_meaning hu (made_built mu).1 su (made_built mu).2
    rw [e2, hv'.2 ⟨s.encoding, s.name, s.sysid, s.pubid, s.groups, s.categories, s.environments,
      s.langpacks, s.blacklist, s.whiteout⟩]
  have bl := DocBuilt.union wab.1 b3.1 x2
  have br := DocBuilt.union b1.1 wbc.1 x4
  have bl' := DocBuilt.union bab b3.1 q2
  have br' := DocBuilt.union b1.1 bbc q4
  obtain ⟨eab, heab⟩ := mab.encoding
  obtain ⟨u1, u2, t1, t2, t3⟩ := C172_merge_docs_partial bab wab.1 b3.1 b3.1 (e := eab) heab (same bab mab)
    (C41_doc b3.1 b3.1 b3.1).1
  rw [q2] at t1; rw [x2] at t2
  cases t1; cases t2
  obtain ⟨u3, u4, t4, t5, t6⟩ := C172_merge_docs_partial b1.1 b1.1 bbc wbc.1 (e := e) he
    (C41_doc b1.1 b1.1 b1.1).1 (same bbc mbc)
  rw [q4] at t4; rw [x4] at t5
  cases t4; cases t5
  have f1 := (C41_doc bl' bl bl').2.1 t3
  have f2 := (C41_doc bl bl' br').2.2 f1 q5
  have f3 := (C41_doc bl br' br).2.2 f2 t6
  exact eq_cmp lt r4 (w4 _ _ (w3 _ _ p2)) p4 (wrap_cmp lt bl br ml mr f3)

/-- For `C174_false` and the examples: three documents, with groups of the id "g". -/
def sumOps (l l' : List Group) : List Op :=
  [.new b!"UTF-8", .new b!"UTF-8", .new b!"UTF-8", .get 0 .groups, .write 0 (.groups l),
    .get 1 .groups, .write 1 (.groups l')]

theorem sumOps_native {l l' : List Group} (h : ∀ g ∈ l, GroupBuilt lt g ∧ g.packages ≠ none)
    (h' : ∀ g ∈ l', GroupBuilt lt g ∧ g.packages ≠ none) : ∀ o ∈ sumOps l l', NativeOp lt o := by
  simp only [sumOps, List.forall_mem_cons, List.not_mem_nil, false_implies, implies_true, NativeOp,
    and_true, true_and]
  exact ⟨h, h'⟩

/-- For `C174_false`: the sums. -/
def theSums : List Op := [.union 0 1, .union 3 2, .union 1 2, .union 0 5]

/-- For `C174_false`: whether `(a + b) + c == a + (b + c)`. -/
def sumEq (ops : List Op) : Option Bool :=
  match run asc start (ops ++ theSums) with
  | .ok (_, st) =>
    match answer asc st (.eq 4 (some 6)) with
    | .ok (.bool v) => some v
    | _ => none
  | .error _ => none

/-- For `C174_false`: the second document has two groups of one id. -/
def twiceOps : List Op := sumOps [idGrp asc b!"g" [pkg b!"a" b!"1"]]
  [idGrp asc b!"g" [pkg b!"x" b!"2"], idGrp asc b!"g" [pkg b!"y" b!"3"]]

/-- **C174, false**: `b` has two groups of one id; in `a + b` both are merged into the group of `a`, in
`b + c` the second of them is dropped. -/
theorem C174_false : (∀ o ∈ twiceOps, NativeOp asc o) ∧ ∃ as st,
    run asc start (twiceOps ++ theSums) = .ok (as, st) ∧
    answer asc st (.eq 4 (some 6)) = .ok (.bool false) := by
  refine ⟨sumOps_native asc ?_ ?_, ?_⟩
  · intro g hg
    rw [List.mem_singleton.1 hg]; exact ⟨idGrp_built _ _, nofun⟩
  · intro g hg
    simp only [List.mem_cons, List.not_mem_nil, or_false] at hg
    rcases hg with rfl | rfl <;> exact ⟨idGrp_built _ _, nofun⟩
  have h : sumEq twiceOps = some false := by decide +kernel
  unfold sumEq at h
  split at h
  · next as st e =>
    split at h
    · next v e' => injection h with h; subst h; exact ⟨_, _, e, e'⟩
    · cases h
  · cases h

/-- Two documents with groups of one id, made of different packages, meet the conditions of
`C174_partial`. -/
theorem distinct_case : ∃ as st, run asc start (sumOps [idGrp asc b!"g" [pkg b!"a" b!"1"]]
      [idGrp asc b!"g" [pkg b!"x" b!"2"]]) = .ok (as, st) ∧ Distinct asc st 0 ∧ Distinct asc st 1 ∧
    Distinct asc st 2 := by
  have ga := idGrp_built (lt := asc) b!"g" [pkg b!"a" b!"1"]
  have gb := idGrp_built (lt := asc) b!"g" [pkg b!"x" b!"2"]
  have one : ∀ g : Group, DistinctIds { noContent with groups := [g] } := fun g =>
    ⟨by simp [UniqueNames], by simp [UniqueNames, noContent], by simp [UniqueNames, noContent]⟩
  refine ⟨_, _, rfl, ⟨_, { noContent with groups := [idGrp asc b!"g" [pkg b!"a" b!"1"]] }, rfl, ?_, one _⟩,
    ⟨_, { noContent with groups := [idGrp asc b!"g" [pkg b!"x" b!"2"]] }, rfl, ?_, one _⟩,
    ⟨_, noContent, rfl, ?_, ⟨by simp [UniqueNames, noContent], by simp [UniqueNames, noContent],
      by simp [UniqueNames, noContent]⟩⟩⟩
  · exact ⟨⟨_, rfl⟩, ⟨_, rfl⟩, ⟨_, rfl⟩, ⟨_, rfl⟩, ⟨rfl, fun g hg => by rw [List.mem_singleton.1 hg]; exact ga⟩,
      ⟨rfl, nofun⟩, ⟨rfl, nofun⟩, ⟨rfl, .create⟩, ⟨rfl, .create⟩, ⟨rfl, .create⟩⟩
  · exact ⟨⟨_, rfl⟩, ⟨_, rfl⟩, ⟨_, rfl⟩, ⟨_, rfl⟩, ⟨rfl, fun g hg => by rw [List.mem_singleton.1 hg]; exact gb⟩,
      ⟨rfl, nofun⟩, ⟨rfl, nofun⟩, ⟨rfl, .create⟩, ⟨rfl, .create⟩, ⟨rfl, .create⟩⟩
  · exact ⟨⟨_, rfl⟩, ⟨_, rfl⟩, ⟨_, rfl⟩, ⟨_, rfl⟩, ⟨rfl, nofun⟩, ⟨rfl, nofun⟩, ⟨rfl, nofun⟩, ⟨rfl, .create⟩,
      ⟨rfl, .create⟩, ⟨rfl, .create⟩⟩

example : ∃ as st, run asc start (sumOps [idGrp asc b!"g" [pkg b!"a" b!"1"]]
      [idGrp asc b!"g" [pkg b!"x" b!"2"]]) = .ok (as, st) ∧ Distinct asc st 0 ∧ Distinct asc st 1 ∧
    Distinct asc st 2 := distinct_case

/-- For the next example: whether the first two documents are equal. -/
def firstEq (ops : List Op) : Option Bool :=
  match run asc start ops with
  | .ok (_, st) =>
    match answer asc st (.eq 0 (some 1)) with
    | .ok (.bool v) => some v
    | _ => none
  | .error _ => none

/-- Two documents that are equal though packages of theirs are for other architectures: conditions of
`C173_sums`. -/
example : ∃ as st, run asc start (sumOps [grp [forArches [cs b!"x86_64"]]] [grp [forArches [cs b!"ppc"]]]) =
      .ok (as, st) ∧ answer asc st (.eq 0 (some 1)) = .ok (.bool true) ∧
    ∃ st1 st2, step asc st (.union 0 1) = .ok (.comps, st1) ∧
      step asc st1 (.union 1 0) = .ok (.comps, st2) ∧
      answer asc st2 (.eq st.docs.length (some st1.docs.length)) = .ok (.bool true) := by
  have hn : ∀ o ∈ sumOps [grp [forArches [cs b!"x86_64"]]] [grp [forArches [cs b!"ppc"]]],
      NativeOp asc o := sumOps_native asc
    (fun g hg => by rw [List.mem_singleton.1 hg]; exact ⟨grp_built _, nofun⟩)
    (fun g hg => by rw [List.mem_singleton.1 hg]; exact ⟨grp_built _, nofun⟩)
  have h : firstEq (sumOps [grp [forArches [cs b!"x86_64"]]] [grp [forArches [cs b!"ppc"]]]) =
      some true := by decide +kernel
  unfold firstEq at h
  split at h
  · next as st e =>
    split at h
    · next v e' =>
      injection h with h; subst h
      obtain ⟨y, z, hy, hz⟩ := eq_holds asc e e'
      exact ⟨_, _, e, e', C173_sums asc hn e e'
        ((C97_program_partial asc hn e).2.2.1 0 1 y z hy hz e')⟩
    · cases h
  · cases h

/-! ## C175 saving and loading before adding -/

open Comps.Parse (Ctx Chunk Parsed parseStr parseFile init)
open Comps.Xml (Options Defaults)

/-- The document can be stored: UTF-8, a document type that can be written, contents that meet the
conditions of C28. -/
def Storable (o : Option Options) (y : Content) : Prop :=
  y.encoding = some ⟨some b!"UTF-8"⟩ ∧ DoctypeOk (y.toDoc lt) ∧
    ∀ c, Made lt y c → Counted c ∧ RoundTrips (o.getD .standard) c

/-- `a2.fromxml_str(a.xml_str())` with what is needed to go on from there. -/
theorem stored {ops : List Op} {as : List Ans} {st : PyComps.St} (hn : ∀ o ∈ ops, NativeOp lt o)
    (h : run lt start ops = .ok (as, st)) {a a2 : Nat} {y y2 : Content} (hy : Holds lt st a y)
    (hy2 : Holds lt st a2 y2) (o : Option Options) (df : Option Defaults) (sy : Storable lt o y)
    {fails : Nat → Bool} (hf : ∀ n, fails n = false) (extra : Bytes → List Bytes) :
    ∃ w st1, step lt st (.xmlStr a o df fails) = .ok (.xml w, st1) ∧
      (∃ dt root, Transmits NoBlank (w.map (·.1)) dt root) ∧
      ∀ dt root, Transmits NoBlank (w.map (·.1)) dt root → ∃ n st2,
        step lt st1 (.fromStr a2 (Reading.plain lt (df.getD .standard) extra).ctx
          ⟨fileEvents dt root, none⟩) = .ok (.num n, st2) ∧
        answer lt st2 (.eq a (some a2)) = .ok (.bool true) ∧
        (∀ c x, c ≠ a2 → Holds lt st c x → Holds lt st2 c x) ∧ (∃ y', Holds lt st2 a2 y') ∧
        ∃ ops' as', (∀ o ∈ ops', NativeOp lt o) ∧ run lt start ops' = .ok (as', st2) := by
  obtain ⟨he, ht, hc⟩ := sy
  obtain ⟨c, hm, -, k⟩ := C96_program_partial lt hn h hy hy2 he ht o df hf extra
  obtain ⟨w, st1, k1, k2, k3⟩ := k (hc c hm).1 (hc c hm).2
  refine ⟨w, st1, k1, k2, fun dt root hd => ?_⟩
  obtain ⟨n, st2, j1, ⟨y', _, j2, -⟩, j3⟩ := k3 dt root hd
  have r1 := run_snoc lt ops h k1
  have r2 := run_snoc lt _ r1 j1
  refine ⟨n, st2, j1, j3, fun i x hi hx => ?_, ⟨y', j2⟩, _, _, ?_, r2⟩
  · have hx1 : Holds lt st1 i x := (C94_looking lt h rfl k1).1 _ _ hx
    rcases C83_fromxml_str lt r1 j1 with ⟨⟨e, q⟩, -⟩ | ⟨_, p, -, -, -, hl⟩
    · cases q
    · exact ((hl.others i hi).1).trans hx1
  · intro q hq
    simp only [List.mem_append, List.mem_singleton] at hq
    rcases hq with (hq | rfl) | rfl
    · exact hn q hq
    · trivial
    · rfl

/-- **C175, partial.**  In every program that Python can write, for documents `a`, `b` that can be stored
and other documents `a2`, `b2`: after `a2.fromxml_str(a.xml_str())` and `b2.fromxml_str(b.xml_str())`,
`a + b == a2 + b2`, if no call of the libxml2 writer fails.  Missing: documents that cannot be stored
(`C175_false`). -/
theorem C175_partial {ops : List Op} {as : List Ans} {st : PyComps.St} (hn : ∀ o ∈ ops, NativeOp lt o)
    (h : run lt start ops = .ok (as, st)) {a b a2 b2 : Nat} {y z y2 z2 : Content}
    (hy : Holds lt st a y) (hz : Holds lt st b z) (hy2 : Holds lt st a2 y2) (hz2 : Holds lt st b2 z2)
    (d1 : a2 ≠ b) (d2 : b2 ≠ a) (d3 : b2 ≠ a2)
    (o : Option Options) (df : Option Defaults) (sy : Storable lt o y) (sz : Storable lt o z)
    {fails : Nat → Bool} (hf : ∀ n, fails n = false) (extra : Bytes → List Bytes) :
    ∃ w st1, step lt st (.xmlStr a o df fails) = .ok (.xml w, st1) ∧
    (∃ dt root, Transmits NoBlank (w.map (·.1)) dt root) ∧
    ∀ dt root, Transmits NoBlank (w.map (·.1)) dt root → ∃ n st2,
    step lt st1 (.fromStr a2 (Reading.plain lt (df.getD .standard) extra).ctx
      ⟨fileEvents dt root, none⟩) = .ok (.num n, st2) ∧
    ∃ w' st3, step lt st2 (.xmlStr b o df fails) = .ok (.xml w', st3) ∧
    (∃ dt root, Transmits NoBlank (w'.map (·.1)) dt root) ∧
    ∀ dt root, Transmits NoBlank (w'.map (·.1)) dt root → ∃ n st4,
    step lt st3 (.fromStr b2 (Reading.plain lt (df.getD .standard) extra).ctx
      ⟨fileEvents dt root, none⟩) = .ok (.num n, st4) ∧
    ∃ st5 st6, step lt st4 (.union a b) = .ok (.comps, st5) ∧
      step lt st5 (.union a2 b2) = .ok (.comps, st6) ∧
      answer lt st6 (.eq st4.docs.length (some st5.docs.length)) = .ok (.bool true) := by
  obtain ⟨w, st1, k1, k2, k3⟩ := stored lt hn h hy hy2 o df sy hf extra
  refine ⟨w, st1, k1, k2, fun dt root ht => ?_⟩
  obtain ⟨n, st2, j1, j2, j3, ⟨y', j4⟩, ops', as', hn', h'⟩ := k3 dt root ht
  obtain ⟨w', st3, l1, l2, l3⟩ := stored lt hn' h' (j3 _ _ d1.symm hz) (j3 _ _ d3 hz2) o df sz hf extra
  refine ⟨n, st2, j1, w', st3, l1, l2, fun dt root ht => ?_⟩
  obtain ⟨n', st4, m1, m2, m3, -, ops2, as2, hn2, h2⟩ := l3 dt root ht
  obtain ⟨ya, ya2, ha, ha2⟩ := eq_holds lt h' j2
  obtain ⟨cy, my, -⟩ := C140_made lt hn' h' ha
  obtain ⟨cy2, my2, -⟩ := C140_made lt hn' h' ha2
  have e1 := eq_cmp lt h2 (m3 _ _ d2.symm ha) (m3 _ _ d3.symm ha2) (eq_true lt h' ha ha2 my my2 j2)
  exact ⟨n', st4, m1, C173_sums lt hn2 h2 e1 m2⟩

/-- The document of `fullOps` can be stored, and be read into the second and into a third document. -/
example : ∃ as st y y2 z2, run asc start (fullOps ++ [.union 1 1]) = .ok (as, st) ∧
    (∀ o ∈ fullOps ++ [.union 1 1], NativeOp asc o) ∧ Holds asc st 0 y ∧
    Holds asc st 1 y2 ∧ Holds asc st 2 z2 ∧ Storable asc none y ∧ y.part .groups = .groups fullContent.groups := by
  obtain ⟨as, st, y, z, h, hy, hz, hm, he, ht, hn⟩ := full_run
  obtain ⟨a, st', hs⟩ := C140_call_partial asc fullOps_native h (o := .union 1 1) trivial (fun h => h)
  have r := run_snoc asc _ h hs
  have keep := (C94_looking asc h rfl hs).1
  have e : ∃ as st z2, run asc start (fullOps ++ [.union 1 1]) = .ok (as, st) ∧ Holds asc st 2 z2 :=
    ⟨_, _, _, rfl, rfl⟩
  obtain ⟨as2, st2, z2, e1, e2⟩ := e
  rw [r] at e1
  cases e1
  refine ⟨_, _, y, z, z2, r, fun o ho => ?_, keep _ _ hy, keep _ _ hz, e2, ⟨he, ht, fun c hc => ?_⟩, ?_⟩
  · rcases List.mem_append.1 ho with q | q
    · exact fullOps_native o q
    · rw [List.mem_singleton.1 q]; trivial
  · cases made_unique asc hm hc
    exact ⟨hn, full_trips⟩
  · exact hm.groups.1

/-- For `C175_false`: the document of `untypedOps` is written and read, and both are added to themselves. -/
def untypedSums : Option Bool :=
  match run asc start untypedOps with
  | .error _ => none
  | .ok (_, st) =>
    match step asc st (.xmlStr 0 none none fun _ => false) with
    | .ok (.xml w, st1) =>
      if w = ((.startDocument b!"UTF-8" ::
          .startDTD (some b!"comps") (some b!"-//Red Hat, Inc.//DTD Comps info//EN")
            (some b!"comps.dtd") :: .endDTD ::
          ((Tree.elem b!"comps" [] untypedTree).calls ++ [.endDocument])).map fun c => (c, true)) then
        match run asc st1 [.fromStr 1 (Reading.plain asc .standard fun _ => []).ctx ⟨untypedEvents, none⟩,
            .union 0 0, .union 1 1] with
        | .ok (_, st2) =>
          match answer asc st2 (.eq 2 (some 3)) with
          | .ok (.bool v) => some v
          | _ => none
        | _ => none
      else none
    | _ => none

/-- **C175, false**: a group with a package made without a type: after `a2.fromxml_str(a.xml_str())`,
`a + a != a2 + a2`. -/
theorem C175_false : (∀ o ∈ untypedOps, NativeOp asc o) ∧
    ∃ as st w st1 dt root as' st2, run asc start untypedOps = .ok (as, st) ∧
      step asc st (.xmlStr 0 none none fun _ => false) = .ok (.xml w, st1) ∧ (∀ x ∈ w, x.2 = true) ∧
      Transmits (fun l => l.length ≤ 1) (w.map (·.1)) dt root ∧
      run asc st1 [.fromStr 1 (Reading.plain asc .standard fun _ => []).ctx ⟨fileEvents dt root, none⟩,
        .union 0 0, .union 1 1] = .ok (as', st2) ∧
      answer asc st2 (.eq 2 (some 3)) = .ok (.bool false) := by
  refine ⟨C96_false.1, ?_⟩
  have h : untypedSums = some false := by decide +kernel
  unfold untypedSums at h
  split at h
  · cases h
  · rename_i as st h1
    split at h
    · rename_i w st1 h2
      split at h
      · rename_i h3
        split at h
        · rename_i as' st2 h4
          split at h
          · rename_i v h5
            cases h
            refine ⟨as, st, w, st1, _, _, as', st2, h1, h2, ?_, ?_, h4, h5⟩
            · intro x hx
              rw [h3] at hx
              obtain ⟨_, _, rfl⟩ := List.mem_map.1 hx; rfl
            · refine ⟨b!"UTF-8", _, _, _, _, _, _, untypedTree, _, _, _, ?_, rfl, rfl,
                delivered_reads whole_flatten whole_one untypedTree⟩
              rw [h3, List.map_map]; exact List.map_id _
          · cases h
        · cases h
      · cases h
    · cases h

end Comps.Props.PyC

section
open Comps.Props.PyC
#print axioms C173_sums
#print axioms C174_partial
#print axioms C174_false
#print axioms C175_partial
#print axioms C175_false
end
