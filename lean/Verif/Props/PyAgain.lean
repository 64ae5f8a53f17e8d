import Verif.Props.PyFilterSum

/-!
# Adding a Python document again (C178)
-/

namespace Comps.Props
open Comps Comps.Spec Comps.Obj

variable {lt : UInt8 → UInt8 → Bool}

/-- Merging looks at the entries and the language packs of the second document only. -/
theorem merge_second {a b b' : Doc} (ha : DocBuilt lt a) (hb : DocBuilt lt b) (hb' : DocBuilt lt b')
    {e : CStr} (he : a.encoding = some e) (hs : SameEntries (content b) (content b')) :
    ∃ u u', a.union lt b = .ok u ∧ a.union lt b' = .ok u' ∧ u.cmp lt u' = .ok true := by
  have ia := docBuilt_inv ha
  have ib := docBuilt_inv hb; have ib' := docBuilt_inv hb'
  obtain ⟨-, p1, p2, p3, p4⟩ := doc_eq ha ha (C41_doc ha ha ha).1
  have xa := contents_built ia
  have xb := contents_built ib; have xb' := contents_built ib'
  obtain ⟨u, h1, i1, c1, r1⟩ := union_ok ia ib he
  obtain ⟨u', h2, i2, c2, r2⟩ := union_ok ia ib' he
  refine ⟨u, u', h1, h2, ?_⟩
  obtain ⟨x, hx, hx'⟩ := C41_doc_meaning (.union ha hb h1) (.union ha hb' h2) (shows_content i1)
    (shows_content i2)
  rw [hx]
  congr 1
  have hr : rest u = rest u' := r1.trans r2.symm
  simp only [rest, Prod.mk.injEq] at hr
  have q1 : Rel2 (EqGroup lt) (content b).groups (content b').groups :=
    rel2_of hs.groups xb.1 xb'.1 fun _ _ p q e => ⟨p, q, group_same_cmp p q e⟩
  have q2 : Rel2 (EqCategory lt) (content b).categories (content b').categories :=
    rel2_of hs.categories xb.2.1 xb'.2.1 fun _ _ p q e => ⟨p, q, category_same_cmp p q e⟩
  have q3 : Rel2 (EqEnv lt) (content b).environments (content b').environments :=
    rel2_of hs.environments xb.2.2.1 xb'.2.2.1 fun _ _ p q e => ⟨p, q, env_same_cmp p q e⟩
  refine hx'.2 ⟨hr.1, hr.2.1, hr.2.2.1, hr.2.2.2.1, ?_, ?_, ?_, ?_, ?_, ?_⟩ <;> rw [c1, c2]
  · exact Rel2.alike' (p1.docUnionList (byKey_congr Group.idcmp_iff group_ids) group_copy_eq
      group_union_eq q1) fun _ _ z => z.2.2
  · exact Rel2.alike' (p2.docUnionList (byKey_congr Category.idcmp_iff category_ids) category_copy_eq
      category_union_eq q2) fun _ _ z => z.2.2
  · exact Rel2.alike' (p3.docUnionList (byKey_congr Env.idcmp_iff env_ids) env_copy_eq
      env_union_eq q3) fun _ _ z => z.2.2
  · exact dict_congr (langBuilt_inv xa.2.2.2.1).reach (langBuilt_inv xa.2.2.2.1).reach
      (langBuilt_inv xb.2.2.2.1).reach (langBuilt_inv xb'.2.2.2.1).reach p4 hs.langpacks
  · exact fun _ => rfl
  · exact fun _ => rfl

/-- **C178.**  For documents with an encoding, without NULL lists and without two entries of one id,
merging the second document a second time gives a document that compares equal. -/
theorem C178_documents {a b : Doc} (ha : DocBuilt lt a) (hb : DocBuilt lt b) {e e' : CStr}
    (he : a.encoding = some e) (he' : b.encoding = some e') {ca cb : DocContent} (sa : Shows lt a ca)
    (sb : Shows lt b cb) (da : DistinctIds ca) (db : DistinctIds cb) (fb : FullLists cb) :
    ∃ u v, a.union lt b = .ok u ∧ u.union lt b = .ok v ∧ v.cmp lt u = .ok true := by
  obtain ⟨u, bb, v, r, _, _, h1, h2, h3, h4, -, -, -, h5⟩ :=
    C167_order_partial ha hb hb he he' sa sb sb da db db
  obtain ⟨bb', c, h6, s6, -, h7⟩ := C167_self_partial hb he' sb db fb
  rw [h3] at h6
  cases h6
  have bbb := DocBuilt.union hb hb h3
  have hs : SameEntries (content bb) (content b) := by
    rw [shows_unique (shows_content (docBuilt_inv bbb)) s6,
      shows_unique (shows_content (docBuilt_inv hb)) sb]
    exact h7
  obtain ⟨r', u', k1, k2, k3⟩ := merge_second ha bbb hb he hs
  rw [h4] at k1; rw [h1] at k2
  cases k1; cases k2
  have bu := DocBuilt.union ha hb h1
  exact ⟨u, v, h1, h2, (C41_doc (.union bu hb h2) (.union ha bbb h4) bu).2.2 h5 k3⟩

/-- Two documents with a group of one id meet the conditions of `C178_documents`. -/
example : ∃ (a b : Doc) (ca cb : DocContent), DocBuilt lt a ∧ DocBuilt lt b ∧
    a.encoding = some (cs b!"UTF-8") ∧ b.encoding = some (cs b!"UTF-8") ∧ Shows lt a ca ∧ Shows lt b cb ∧
    DistinctIds ca ∧ DistinctIds cb ∧ FullLists cb ∧
    cb.groups.map Group.getPackageList = [some [pkg b!"x" b!"2"]] := by
  obtain ⟨a, ha, he, sa⟩ := made (lt := lt) [.addGroup (idGrp lt b!"g" [pkg b!"a" b!"1"])]
    (by simp [DocCall.Good, idGrp_built])
  obtain ⟨b, hb, he', sb⟩ := made (lt := lt) [.addGroup (idGrp lt b!"g" [pkg b!"x" b!"2"])]
    (by simp [DocCall.Good, idGrp_built])
  refine ⟨a, b, _, _, ha, hb, he, he', sa, sb, ⟨?_, ?_, ?_⟩, ⟨?_, ?_, ?_⟩, ⟨?_, ?_, ?_⟩, rfl⟩
  all_goals first
    | simp [DocCall.effect, noContent, UniqueNames]; done
    | (intro g hg; simp [DocCall.effect, noContent] at hg; subst hg; exact ⟨_, rfl⟩)

end Comps.Props

namespace Comps.Props.PyC
open Comps Comps.Obj Comps.Spec Comps.Spec.PyComps Comps.PyComps Comps.Props

variable (lt : UInt8 → UInt8 → Bool)

/-- **C178.**  In every program that Python can write, for documents in which no two entries of a kind
have one id: `(a + b) + b == a + b`, and both sums can be made. -/
theorem C178_python {ops : List Op} {as : List Ans} {st : PyComps.St} (hn : ∀ o ∈ ops, NativeOp lt o)
    (h : run lt start ops = .ok (as, st)) {a b : Nat} (da : Distinct lt st a) (db : Distinct lt st b) :
    ∃ st1 st2, step lt st (.union a b) = .ok (.comps, st1) ∧
      step lt st1 (.union st.docs.length b) = .ok (.comps, st2) ∧
      answer lt st2 (.eq st1.docs.length (some st.docs.length)) = .ok (.bool true) := by
  obtain ⟨x, cx, hx, mx, dx⟩ := da
  obtain ⟨y, cy, hy, my, dy⟩ := db
  obtain ⟨st1, u, s1, x1, p1, w1, ⟨as1, r1⟩, n1⟩ := plus lt hn h hx hy
  obtain ⟨st2, v, s2, x2, p2, w2, ⟨as2, r2⟩, n2⟩ := plus lt n1 r1 p1 (w1 _ _ hy)
  refine ⟨st1, st2, s1, s2, ?_⟩
  obtain ⟨c0, m0, fy⟩ := C140_made lt hn h hy
  cases made_unique lt m0 my
  obtain ⟨c1, m1, -⟩ := C140_made lt n1 r1 p1
  obtain ⟨c2, m2, -⟩ := C140_made lt n2 r2 p2
  obtain ⟨e, he⟩ := mx.encoding
  obtain ⟨e', he'⟩ := my.encoding
  have bx := made_built mx; have by' := made_built my
  obtain ⟨u0, v0, q1, q2, q3⟩ := C178_documents bx.1 by'.1 (e := e) (e' := e') he he' bx.2 by'.2 dx dy fy
  rw [x1] at q1
  cases q1
  have bu := DocBuilt.union bx.1 by'.1 x1
  have bw := (made_built m1).1
  obtain ⟨eu, hu⟩ := m1.encoding
  obtain ⟨t, t', k1, k2, k3⟩ := C172_merge_docs_partial bw bu by'.1 by'.1 (e := eu) hu
    (cmp_same lt bw bu (wrapped lt bu m1) rfl rfl rfl rfl) (C41_doc by'.1 by'.1 by'.1).1
  rw [x2] at k1; rw [q2] at k2
  cases k1; cases k2
  have bv := DocBuilt.union bw by'.1 x2
  exact eq_cmp lt r2 p2 (w2 _ _ p1) (wrap_cmp lt bv bu m2 m1
    ((C41_doc bv (.union bu by'.1 q2) bu).2.2 k3 q3))

/-- Two documents with groups of one id. -/
example : ∃ as st st1 st2, run asc start (sumOps [idGrp asc b!"g" [pkg b!"a" b!"1"]]
      [idGrp asc b!"g" [pkg b!"x" b!"2"]]) = .ok (as, st) ∧
    step asc st (.union 0 1) = .ok (.comps, st1) ∧
    step asc st1 (.union st.docs.length 1) = .ok (.comps, st2) ∧
    answer asc st2 (.eq st1.docs.length (some st.docs.length)) = .ok (.bool true) := by
  obtain ⟨as, st, h, d0, d1, -⟩ := distinct_case
  obtain ⟨st1, st2, k1, k2, k3⟩ := C178_python asc (sumOps_native asc
    (fun g hg => by rw [List.mem_singleton.1 hg]; exact ⟨idGrp_built _ _, nofun⟩)
    (fun g hg => by rw [List.mem_singleton.1 hg]; exact ⟨idGrp_built _ _, nofun⟩)) h d0 d1
  exact ⟨as, st, st1, st2, h, k1, k2, k3⟩

end Comps.Props.PyC

section
open Comps.Props Comps.Props.PyC
#print axioms C178_documents
#print axioms C178_python
end
