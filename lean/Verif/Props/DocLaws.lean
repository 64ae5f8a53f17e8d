import Verif.Lemmas.DocLaws
import Verif.Props.Laws
import Verif.Props.DocCopy

/-!
# Laws of merging documents (C167)

`Shows lt d c` says that `c` is what the getters of the document `d` return; `cmp` is the comparison
of the library.
-/

namespace Comps.Props
open Comps Comps.Spec Comps.Obj

variable {lt : UInt8 → UInt8 → Bool}

theorem dict_congr {t1 t1' t2 t2' : RTree PVal} (h1 : Reachable lt t1) (h1' : Reachable lt t1')
    (h2 : Reachable lt t2) (h2' : Reachable lt t2') (e1 : SameDict t1 t1') (e2 : SameDict t2 t2') :
    SameDict (t1.union lt PVal.copy t2) (t1'.union lt PVal.copy t2') := fun k => by
  rw [union_get h1 h2, union_get h1' h2', e1 k, e2 k]

theorem groupLaws : MergeLaws Group.copy (Group.union lt) (GroupBuilt lt) SameGroup where
  refl _ := ⟨fun _ => rfl, fun _ => rfl, fun _ => rfl, rfl⟩
  symm h := ⟨fun k => (h.props k).symm, fun k => (h.name k).symm, fun k => (h.desc k).symm,
    h.packages.symm⟩
  trans h h' := ⟨fun k => (h.props k).trans (h'.props k), fun k => (h.name k).trans (h'.name k),
    fun k => (h.desc k).trans (h'.desc k), h.packages.trans h'.packages⟩
  copy_like _ h := group_copy_same h
  congr {x x' y y'} a b c d h h' := by
    have i := groupBuilt_inv a; have j := groupBuilt_inv b
    have k := groupBuilt_inv c; have m := groupBuilt_inv d
    refine ⟨dict_congr i.props.reachable j.props.reachable k.props.reachable m.props.reachable h.props
        h'.props,
      dict_congr i.name.reach j.name.reach k.name.reach m.name.reach h.name h'.name,
      dict_congr i.desc.reach j.desc.reach k.desc.reach m.desc.reach h.desc h'.desc, ?_⟩
    rw [packages_merge, packages_merge, h.packages, h'.packages]
  assoc _ _ _ := group_assoc_same

theorem categoryLaws : MergeLaws Category.copy (Category.union lt) (CategoryBuilt lt) SameCategory where
  refl _ := ⟨fun _ => rfl, fun _ => rfl, fun _ => rfl, rfl⟩
  symm h := ⟨fun k => (h.props k).symm, fun k => (h.name k).symm, fun k => (h.desc k).symm,
    h.ids.symm⟩
  trans h h' := ⟨fun k => (h.props k).trans (h'.props k), fun k => (h.name k).trans (h'.name k),
    fun k => (h.desc k).trans (h'.desc k), h.ids.trans h'.ids⟩
  copy_like _ h := category_copy_same h
  congr {x x' y y'} a b c d h h' := by
    have i := categoryBuilt_inv a; have j := categoryBuilt_inv b
    have k := categoryBuilt_inv c; have m := categoryBuilt_inv d
    refine ⟨dict_congr i.props.reachable j.props.reachable k.props.reachable m.props.reachable h.props
        h'.props,
      dict_congr i.name.reach j.name.reach k.name.reach m.name.reach h.name h'.name,
      dict_congr i.desc.reach j.desc.reach k.desc.reach m.desc.reach h.desc h'.desc, ?_⟩
    rw [ids_merge, ids_merge, h.ids, h'.ids]
  assoc _ _ _ := category_assoc_same

theorem envLaws : MergeLaws Env.copy (Env.union lt) (EnvBuilt lt) SameEnv where
  refl _ := ⟨fun _ => rfl, fun _ => rfl, fun _ => rfl, rfl, rfl⟩
  symm h := ⟨fun k => (h.props k).symm, fun k => (h.name k).symm, fun k => (h.desc k).symm,
    h.groups.symm, h.options.symm⟩
  trans h h' := ⟨fun k => (h.props k).trans (h'.props k), fun k => (h.name k).trans (h'.name k),
    fun k => (h.desc k).trans (h'.desc k), h.groups.trans h'.groups, h.options.trans h'.options⟩
  copy_like _ h := env_copy_same h
  congr {x x' y y'} a b c d h h' := by
    have i := envBuilt_inv a; have j := envBuilt_inv b
    have k := envBuilt_inv c; have m := envBuilt_inv d
    refine ⟨dict_congr i.props.reachable j.props.reachable k.props.reachable m.props.reachable h.props
        h'.props,
      dict_congr i.name.reach j.name.reach k.name.reach m.name.reach h.name h'.name,
      dict_congr i.desc.reach j.desc.reach k.desc.reach m.desc.reach h.desc h'.desc, ?_, ?_⟩
    · rw [groups_merge, groups_merge, h.groups, h'.groups]
    · rw [options_merge, options_merge, h.options, h'.options]
  assoc _ _ _ := env_assoc_same

/-- No two entries of a kind have one id. -/
structure DistinctIds (c : DocContent) : Prop where
  groups : UniqueNames (fun g : Group => idOf g.props) c.groups
  categories : UniqueNames (fun g : Category => idOf g.props) c.categories
  environments : UniqueNames (fun g : Env => idOf g.props) c.environments

/-- The same entries in the same order for all getters, and the same language packs. -/
structure SameEntries (a b : DocContent) : Prop where
  groups : Alike SameGroup a.groups b.groups
  categories : Alike SameCategory a.categories b.categories
  environments : Alike SameEnv a.environments b.environments
  langpacks : SameDict a.langpacks b.langpacks

theorem alike_imp {α : Type} {R S : α → α → Prop} {P : α → Prop} {a b : List α} (h : Alike R a b)
    (ha : ∀ x ∈ a, P x) (hb : ∀ x ∈ b, P x) (hi : ∀ x y, P x → P y → R x y → S x y) : Alike S a b :=
  ⟨h.1, fun i x y hx hy => hi x y (ha x (List.mem_of_getElem? hx)) (hb y (List.mem_of_getElem? hy))
    (h.2 i x y hx hy)⟩

/-- **C167.**  For three documents, each without two entries of one id, of which the first two have an
encoding: merging the first two and then the third works, so does merging the last two and then the
first with that, and both results compare equal and show the same entries in the same order.
Missing: documents with two entries of one id (`C167_false`) and without encoding
(`C23_false_encoding`). -/
theorem C167_order_partial {a b c : Doc} (ha : DocBuilt lt a) (hb : DocBuilt lt b)
    (hc : DocBuilt lt c) {e e' : CStr} (he : a.encoding = some e) (he' : b.encoding = some e')
    {ca cb cc : DocContent} (sa : Shows lt a ca) (sb : Shows lt b cb) (sc : Shows lt c cc)
    (da : DistinctIds ca) (db : DistinctIds cb) (dc : DistinctIds cc) :
    ∃ ab bc l r cl cr, a.union lt b = .ok ab ∧ ab.union lt c = .ok l ∧ b.union lt c = .ok bc ∧
      a.union lt bc = .ok r ∧ Shows lt l cl ∧ Shows lt r cr ∧ SameEntries cl cr ∧
      l.cmp lt r = .ok true := by
  have ia := docBuilt_inv ha; have ib := docBuilt_inv hb; have ic := docBuilt_inv hc
  rw [shows_unique sa (shows_content ia)] at *
  rw [shows_unique sb (shows_content ib)] at *
  rw [shows_unique sc (shows_content ic)] at *
  obtain ⟨ab, h1, i1, c1, r1⟩ := union_ok ia ib he
  obtain ⟨l, h2, i2, c2, r2⟩ := union_ok i1 ic (rest_make e ab r1)
  obtain ⟨bc, h3, i3, c3, r3⟩ := union_ok ib ic he'
  obtain ⟨r, h4, i4, c4, r4⟩ := union_ok ia i3 he
  have xa := contents_built ia; have xb := contents_built ib; have xc := contents_built ic
  have xl := contents_built i2; have xr := contents_built i4
  have hs : SameEntries (content l) (content r) := by
    rw [c2, c4, c1, c3]
    exact ⟨docUnionList_assoc Group.idcmp_iff groupMerge groupLaws xa.1 xb.1 xc.1 da.groups db.groups
        dc.groups,
      docUnionList_assoc Category.idcmp_iff categoryMerge categoryLaws xa.2.1 xb.2.1 xc.2.1
        da.categories db.categories dc.categories,
      docUnionList_assoc Env.idcmp_iff envMerge envLaws xa.2.2.1 xb.2.2.1 xc.2.2.1
        da.environments db.environments dc.environments,
      dict_assoc (langBuilt_inv xa.2.2.2.1).reach (langBuilt_inv xb.2.2.2.1).reach
        (langBuilt_inv xc.2.2.2.1).reach⟩
  have bl : DocBuilt lt l := .union (.union ha hb h1) hc h2
  have br : DocBuilt lt r := .union ha (.union hb hc h3) h4
  refine ⟨ab, bc, l, r, _, _, h1, h2, h3, h4, shows_content i2, shows_content i4, hs, ?_⟩
  obtain ⟨x, hx, hx'⟩ := C41_doc_meaning bl br (shows_content i2) (shows_content i4)
  rw [hx]
  congr 1
  have hr : rest l = rest r := r2.trans r4.symm
  simp only [rest, Prod.mk.injEq] at hr
  refine hx'.2 ⟨hr.1, hr.2.1, hr.2.2.1, hr.2.2.2.1, ?_, ?_, ?_, hs.langpacks, ?_, ?_⟩
  · exact alike_imp hs.groups xl.1 xr.1 fun x y => group_same_cmp
  · exact alike_imp hs.categories xl.2.1 xr.2.1 fun x y => category_same_cmp
  · exact alike_imp hs.environments xl.2.2.1 xr.2.2.1 fun x y => env_same_cmp
  · intro k; rw [c2, c4]; rfl
  · intro k; rw [c2, c4]; rfl

/-- **C167.**  A document with an encoding, without two entries of one id and without NULL lists, merged
with itself shows the same entries in the same order, and the same language packs.  (The black list
and whiteout are not carried over, C57.)  Missing: the other documents. -/
theorem C167_self_partial {a : Doc} (ha : DocBuilt lt a) {e : CStr} (he : a.encoding = some e)
    {ca : DocContent} (sa : Shows lt a ca) (da : DistinctIds ca) (fa : FullLists ca) :
    ∃ d c, a.union lt a = .ok d ∧ Shows lt d c ∧ d.encoding = a.encoding ∧ SameEntries c ca := by
  have ia := docBuilt_inv ha
  rw [shows_unique sa (shows_content ia)] at *
  obtain ⟨d, h1, i1, c1, r1⟩ := union_ok ia ia he
  have xa := contents_built ia
  refine ⟨d, _, h1, shows_content i1, (rest_make e d r1).trans he.symm, ?_⟩
  rw [c1]
  refine ⟨docUnionList_self Group.idcmp_iff groupMerge groupLaws xa.1 da.groups fun g hg => ?_,
    docUnionList_self Category.idcmp_iff categoryMerge categoryLaws xa.2.1 da.categories fun g hg => ?_,
    docUnionList_self Env.idcmp_iff envMerge envLaws xa.2.2.1 da.environments fun g hg => ?_,
    dict_self (langBuilt_inv xa.2.2.2.1).reach⟩
  · obtain ⟨l, hl⟩ := fa.1 g hg
    exact group_self_same (xa.1 g hg) hl
  · obtain ⟨l, hl⟩ := fa.2.1 g hg
    exact category_self_same (xa.2.1 g hg) hl
  · obtain ⟨⟨l, hl⟩, o, ho⟩ := fa.2.2 g hg
    exact env_self_same (xa.2.2.1 g hg) hl ho

/-- C167 is false if the second document has two groups of one id: merged with the first document both
are merged into its group, merged with the third (empty) document the second of them is dropped. -/
theorem C167_false : ∃ (a b c ab bc l r : Doc) (cl cr : DocContent), DocBuilt lt a ∧ DocBuilt lt b ∧
    DocBuilt lt c ∧ a.union lt b = .ok ab ∧ ab.union lt c = .ok l ∧ b.union lt c = .ok bc ∧
    a.union lt bc = .ok r ∧ Shows lt l cl ∧ Shows lt r cr ∧
    cl.groups.map Group.getPackageList =
      [some [pkg b!"a" b!"1", pkg b!"x" b!"2", pkg b!"y" b!"3"]] ∧
    cr.groups.map Group.getPackageList = [some [pkg b!"a" b!"1", pkg b!"x" b!"2"]] := by
  obtain ⟨a, ha, he, sa⟩ := made (lt := lt) [.addGroup (idGrp lt b!"g" [pkg b!"a" b!"1"])]
    (by simp [DocCall.Good, idGrp_built])
  obtain ⟨b, hb, he', sb⟩ := made (lt := lt) [DocCall.setGroups (some [idGrp lt b!"g" [pkg b!"x" b!"2"],
      idGrp lt b!"g" [pkg b!"y" b!"3"]])] (by simp [DocCall.Good, idGrp_built])
  have hc := newDoc_built (lt := lt)
  have sc := (C44_new (lt := lt) (args := some (some (cs b!"UTF-8"))) rfl none).1
  have ia := docBuilt_inv ha; have ib := docBuilt_inv hb; have ic := docBuilt_inv hc
  obtain ⟨ab, h1, i1, c1, r1⟩ := union_ok ia ib he
  obtain ⟨l, h2, i2, c2, r2⟩ := union_ok i1 ic (rest_make _ ab r1)
  obtain ⟨bc, h3, i3, c3, r3⟩ := union_ok ib ic he'
  obtain ⟨r, h4, i4, c4, r4⟩ := union_ok ia i3 he
  rw [shows_unique (shows_content ia) sa, shows_unique (shows_content ib) sb] at c1
  rw [c1, shows_unique (shows_content ic) sc] at c2
  rw [shows_unique (shows_content ib) sb, shows_unique (shows_content ic) sc] at c3
  rw [shows_unique (shows_content ia) sa, c3] at c4
  refine ⟨a, b, newDoc, ab, bc, l, r, _, _, ha, hb, hc, h1, h2, h3, h4, shows_content i2,
    shows_content i4, ?_, ?_⟩
  · rw [c2]; rfl
  · rw [c4]; rfl

/-- Three documents meeting the conditions of `C167_order_partial`, with a group all have. -/
example : ∃ (a b : Doc) (ca cb : DocContent), DocBuilt lt a ∧ DocBuilt lt b ∧
    a.encoding = some (cs b!"UTF-8") ∧ b.encoding = some (cs b!"UTF-8") ∧ Shows lt a ca ∧
    Shows lt b cb ∧ DistinctIds ca ∧ DistinctIds cb ∧ FullLists ca ∧ ca.groups.length = 2 ∧
    ca.groups ≠ cb.groups := by
  obtain ⟨a, ha, he, sa⟩ := made (lt := lt) [.addGroup (idGrp lt b!"g" [pkg b!"a" b!"1"]),
    .addGroup (idGrp lt b!"h" [pkg b!"c" b!"1"])] (by simp [DocCall.Good, idGrp_built])
  obtain ⟨b, hb, he', sb⟩ := made (lt := lt) [.addGroup (idGrp lt b!"g" [pkg b!"x" b!"2"])]
    (by simp [DocCall.Good, idGrp_built])
  refine ⟨a, b, _, _, ha, hb, he, he', sa, sb, ⟨?_, List.nodup_nil, List.nodup_nil⟩,
    ⟨List.nodup_cons.2 ⟨by simp, List.nodup_nil⟩, List.nodup_nil, List.nodup_nil⟩, ⟨?_, ?_, ?_⟩, rfl, ?_⟩
  · show [some (PVal.str (cs b!"g")), some (PVal.str (cs b!"h"))].Nodup
    decide
  · intro g hg
    simp only [List.foldl, DocCall.effect, noContent, List.nil_append, List.cons_append, List.mem_cons,
      List.not_mem_nil, or_false] at hg
    rcases hg with rfl | rfl <;> exact ⟨_, rfl⟩
  · exact fun g hg => absurd hg (List.not_mem_nil)
  · exact fun g hg => absurd hg (List.not_mem_nil)
  · intro h
    exact absurd (congrArg List.length h) (by show ¬ (2 = 1); decide)

end Comps.Props

#print axioms Comps.Props.C167_order_partial
#print axioms Comps.Props.C167_self_partial
#print axioms Comps.Props.C167_false
