import Verif.Lemmas.InterLaws
import Verif.Props.DocLaws

/-!
# Laws of intersecting documents (C169)

`Shows lt d c` says that `c` is what the getters of the document `d` return; `cmp` is the comparison
of the library.
-/

namespace Comps.Props
open Comps Comps.Spec Comps.Obj

variable {lt : UInt8 → UInt8 → Bool}

theorem groupCommon : CommonLaws (fun g : Group => idOf g.props) (Group.intersect lt)
    (fun g => GroupBuilt lt g ∧ ∃ l, g.getPackageList = some l) SameGroup where
  total y x := by
    rintro ⟨hy, ly, ey⟩ ⟨hx, lx, ex⟩ hk
    have e := group_inter (lt := lt) y x ey ex
    exact ⟨_, e, ⟨.intersect hy hx e, _, rfl⟩,
      intersect_id (groupBuilt_inv hy).props.reachable (groupBuilt_inv hx).props.reachable hk⟩
  assoc x y z xy yz l r := by
    rintro ⟨hx, lx, ex⟩ ⟨hy, ly, ey⟩ ⟨hz, lz, ez⟩ h1 h2 h3 h4
    obtain ⟨_, _, _, _, k1, k2, k3, k4, hs, -⟩ := C166_order_partial.1 hx hy hz ex ey ez
    rw [h1] at k1; cases k1
    rw [h2] at k2; cases k2
    rw [h3] at k3; cases k3
    rw [h4] at k4; cases k4
    exact hs

theorem categoryCommon : CommonLaws (fun g : Category => idOf g.props) (Category.intersect lt)
    (fun g => CategoryBuilt lt g ∧ ∃ l, g.getGroupIds = some l) SameCategory where
  total y x := by
    rintro ⟨hy, ly, ey⟩ ⟨hx, lx, ex⟩ hk
    have e := category_inter (lt := lt) y x ey ex
    exact ⟨_, e, ⟨.intersect hy hx e, _, rfl⟩,
      intersect_id (categoryBuilt_inv hy).props.reachable (categoryBuilt_inv hx).props.reachable hk⟩
  assoc x y z xy yz l r := by
    rintro ⟨hx, lx, ex⟩ ⟨hy, ly, ey⟩ ⟨hz, lz, ez⟩ h1 h2 h3 h4
    obtain ⟨_, _, _, _, k1, k2, k3, k4, hs, -⟩ := C166_order_partial.2.1 hx hy hz ex ey ez
    rw [h1] at k1; cases k1
    rw [h2] at k2; cases k2
    rw [h3] at k3; cases k3
    rw [h4] at k4; cases k4
    exact hs

theorem envCommon : CommonLaws (fun g : Env => idOf g.props) (Env.intersect lt)
    (fun g => EnvBuilt lt g ∧ (∃ l, g.getGroupList = some l) ∧ ∃ l, g.getOptionList = some l)
    SameEnv where
  total y x := by
    rintro ⟨hy, ⟨ly, ey⟩, oy, fy⟩ ⟨hx, ⟨lx, ex⟩, ox, fx⟩ hk
    have e := env_inter (lt := lt) y x ey ex fy fx
    exact ⟨_, e, ⟨.intersect hy hx e, ⟨_, rfl⟩, _, rfl⟩,
      intersect_id (envBuilt_inv hy).props.reachable (envBuilt_inv hx).props.reachable hk⟩
  assoc x y z xy yz l r := by
    rintro ⟨hx, ⟨lx, ex⟩, ox, fx⟩ ⟨hy, ⟨ly, ey⟩, oy, fy⟩ ⟨hz, ⟨lz, ez⟩, oz, fz⟩ h1 h2 h3 h4
    obtain ⟨_, _, _, _, k1, k2, k3, k4, hs, -⟩ :=
      C166_order_partial.2.2 hx hy hz ex ey ez fx fy fz
    rw [h1] at k1; cases k1
    rw [h2] at k2; cases k2
    rw [h3] at k3; cases k3
    rw [h4] at k4; cases k4
    exact hs

theorem alike_symm' {α : Type} {R : α → α → Prop} (hR : ∀ {x y}, R x y → R y x) {a b : List α}
    (h : Alike R a b) : Alike R b a := ⟨h.1.symm, fun i x y hx hy => hR (h.2 i y x hy hx)⟩

/-- **C169.**  For three documents without NULL lists, of which the first two have an encoding:
intersecting the first two and then the third works, so does intersecting the last two and then the
first with that, and both results compare equal and show the same entries in the same order.  (No
condition on the ids.)  Missing: NULL lists and documents without encoding (C24). -/
theorem C169_order_partial {a b c : Doc} (ha : DocBuilt lt a) (hb : DocBuilt lt b)
    (hc : DocBuilt lt c) {e e' : CStr} (he : a.encoding = some e) (he' : b.encoding = some e')
    {ca cb cc : DocContent} (sa : Shows lt a ca) (sb : Shows lt b cb) (sc : Shows lt c cc)
    (fa : FullLists ca) (fb : FullLists cb) (fc : FullLists cc) :
    ∃ ab bc l r cl cr, a.intersect lt b = .ok ab ∧ ab.intersect lt c = .ok l ∧
      b.intersect lt c = .ok bc ∧ a.intersect lt bc = .ok r ∧ Shows lt l cl ∧ Shows lt r cr ∧
      SameEntries cl cr ∧ l.cmp lt r = .ok true := by
  have ia := docBuilt_inv ha; have ib := docBuilt_inv hb; have ic := docBuilt_inv hc
  rw [shows_unique sa (shows_content ia)] at *
  rw [shows_unique sb (shows_content ib)] at *
  rw [shows_unique sc (shows_content ic)] at *
  have xa := contents_built ia; have xb := contents_built ib; have xc := contents_built ic
  obtain ⟨gab, gbc, gl, gr, g1, g2, g3, g4, gs⟩ := docIntersectList_assoc Group.idcmp_iff
    (groupCommon (lt := lt)) (fun x h => ⟨xa.1 x h, fa.1 x h⟩) (fun x h => ⟨xb.1 x h, fb.1 x h⟩)
    (fun x h => ⟨xc.1 x h, fc.1 x h⟩)
  obtain ⟨kab, kbc, kl, kr, k1, k2, k3, k4, ks⟩ := docIntersectList_assoc Category.idcmp_iff
    (categoryCommon (lt := lt)) (fun x h => ⟨xa.2.1 x h, fa.2.1 x h⟩)
    (fun x h => ⟨xb.2.1 x h, fb.2.1 x h⟩) (fun x h => ⟨xc.2.1 x h, fc.2.1 x h⟩)
  obtain ⟨eab, ebc, el, er, e1, e2, e3, e4, es⟩ := docIntersectList_assoc Env.idcmp_iff
    (envCommon (lt := lt)) (fun x h => ⟨xa.2.2.1 x h, fa.2.2 x h⟩)
    (fun x h => ⟨xb.2.2.1 x h, fb.2.2 x h⟩) (fun x h => ⟨xc.2.2.1 x h, fc.2.2 x h⟩)
  obtain ⟨ab, h1, i1, c1, r1⟩ := intersect_ok ia ib he g1 k1 e1
  obtain ⟨bc, h3, i3, c3, r3⟩ := intersect_ok ib ic he' g3 k3 e3
  obtain ⟨l, h2, i2, c2, r2⟩ := intersect_ok i1 ic (rest_make e ab r1) (lg := gl) (lk := kl) (le := el)
    (by rw [c1]; exact g2) (by rw [c1]; exact k2) (by rw [c1]; exact e2)
  obtain ⟨r, h4, i4, c4, r4⟩ := intersect_ok ia i3 he (lg := gr) (lk := kr) (le := er)
    (by rw [c3]; exact g4) (by rw [c3]; exact k4) (by rw [c3]; exact e4)
  have xl := contents_built i2; have xr := contents_built i4
  have hs : SameEntries (content l) (content r) := by
    rw [c2, c4]
    exact ⟨alike_symm' (groupLaws (lt := lt)).symm gs, alike_symm' (categoryLaws (lt := lt)).symm ks,
      alike_symm' (envLaws (lt := lt)).symm es, fun _ => rfl⟩
  have bl : DocBuilt lt l := .intersect (.intersect ha hb h1) hc h2
  have br : DocBuilt lt r := .intersect ha (.intersect hb hc h3) h4
  refine ⟨ab, bc, l, r, _, _, h1, h2, h3, h4, shows_content i2, shows_content i4, hs, ?_⟩
  obtain ⟨x, hx, hx'⟩ := C41_doc_meaning bl br (shows_content i2) (shows_content i4)
  rw [hx]
  congr 1
  have hr : rest l = rest r := r2.trans r4.symm
  simp only [rest, Prod.mk.injEq] at hr
  refine hx'.2 ⟨hr.1, hr.2.1, hr.2.2.1, hr.2.2.2.1, ?_, ?_, ?_, hs.langpacks, ?_, ?_⟩
  · exact alike_imp hs.groups xl.1 xr.1 fun x y => group_same_cmp
  · exact alike_imp hs.categories xl.2.1 xr.2.1 fun x y => category_same_cmp
  · exact alike_imp hs.environments xl.2.2.1 xr.2.2.1 fun x y => env_same_cmp
  · intro k; rw [c2, c4]
  · intro k; rw [c2, c4]

/-- The environments list no group twice. -/
def EnvsOnce (c : DocContent) : Prop := ∀ g ∈ c.environments,
  (∀ l, g.getGroupList = some l → UniqueNames GroupId.getName l) ∧
  ∀ l, g.getOptionList = some l → UniqueNames GroupId.getName l

/-- No entry has a translated name or description. -/
structure NoTranslations (c : DocContent) : Prop where
  groups : ∀ g ∈ c.groups, Untranslated g.nameByLang g.descByLang
  categories : ∀ g ∈ c.categories, Untranslated g.nameByLang g.descByLang
  environments : ∀ g ∈ c.environments, Untranslated g.nameByLang g.descByLang

/-- **C169.**  A document with an encoding, without NULL lists, without two entries of one id, without
translations and language packs, and whose environments list no group twice, intersected with itself
shows the same entries in the same order.  Missing: the others (`C169_false`, `C169_false_ids`,
`C166_false_env`). -/
theorem C169_self_partial {a : Doc} (ha : DocBuilt lt a) {e : CStr} (he : a.encoding = some e)
    {ca : DocContent} (sa : Shows lt a ca) (da : DistinctIds ca) (fa : FullLists ca)
    (oa : EnvsOnce ca) (na : NoTranslations ca) (la : ∀ k, ca.langpacks.get k = none) :
    ∃ d c, a.intersect lt a = .ok d ∧ Shows lt d c ∧ d.encoding = a.encoding ∧ SameEntries c ca := by
  have ia := docBuilt_inv ha
  rw [shows_unique sa (shows_content ia)] at *
  have xa := contents_built ia
  obtain ⟨lg, g1, gs⟩ := docIntersectList_self (S := SameGroup) Group.idcmp_iff (groupCommon (lt := lt))
    (fun x h => ⟨xa.1 x h, fa.1 x h⟩) da.groups (by
      intro g hg r hr
      obtain ⟨l, hl⟩ := fa.1 g hg
      have eq := group_inter (lt := lt) g g hl hl
      rw [common_self, hr] at eq
      injection eq with eq; subst eq
      exact ⟨inter_self (groupBuilt_inv (xa.1 g hg)).props.reachable,
        fun k => (empty_get k).trans (na.groups g hg k).1.symm,
        fun k => (empty_get k).trans (na.groups g hg k).2.symm, hl.symm⟩)
  obtain ⟨lk, k1, ks⟩ := docIntersectList_self (S := SameCategory) Category.idcmp_iff
    (categoryCommon (lt := lt)) (fun x h => ⟨xa.2.1 x h, fa.2.1 x h⟩) da.categories (by
      intro g hg r hr
      obtain ⟨l, hl⟩ := fa.2.1 g hg
      have eq := category_inter (lt := lt) g g hl hl
      rw [common_self, hr] at eq
      injection eq with eq; subst eq
      exact ⟨inter_self (categoryBuilt_inv (xa.2.1 g hg)).props.reachable,
        fun k => (empty_get k).trans (na.categories g hg k).1.symm,
        fun k => (empty_get k).trans (na.categories g hg k).2.symm, hl.symm⟩)
  obtain ⟨le, e1, es⟩ := docIntersectList_self (S := SameEnv) Env.idcmp_iff (envCommon (lt := lt))
    (fun x h => ⟨xa.2.2.1 x h, fa.2.2 x h⟩) da.environments (by
      intro g hg r hr
      obtain ⟨⟨l, hl⟩, o, ho⟩ := fa.2.2 g hg
      have eq := env_inter (lt := lt) g g hl hl ho ho
      rw [common_self, common_self, unique_of_names GroupId.cmpSet_iff ((oa g hg).1 l hl),
        unique_of_names GroupId.cmpSet_iff ((oa g hg).2 o ho), hr] at eq
      injection eq with eq; subst eq
      exact ⟨inter_self (envBuilt_inv (xa.2.2.1 g hg)).props.reachable,
        fun k => (empty_get k).trans (na.environments g hg k).1.symm,
        fun k => (empty_get k).trans (na.environments g hg k).2.symm, hl.symm, ho.symm⟩)
  obtain ⟨d, h1, i1, c1, r1⟩ := intersect_ok ia ia he g1 k1 e1
  refine ⟨d, _, h1, shows_content i1, (rest_make e d r1).trans he.symm, ?_⟩
  rw [c1]
  exact ⟨gs, ks, es, fun k => (empty_get k).trans (la k).symm⟩

/-- C169 is false for a document with a translated group name: intersected with itself the translation
is gone and the document compares different. -/
theorem C169_false : ∃ (a d : Doc) (ca c : DocContent), DocBuilt lt a ∧ Shows lt a ca ∧
    DistinctIds ca ∧ FullLists ca ∧ a.intersect lt a = .ok d ∧ Shows lt d c ∧
    ca.groups.map (fun g => g.nameByLang.get b!"cs") = [some (.str (cs b!"x"))] ∧
    c.groups.map (fun g => g.nameByLang.get b!"cs") = [none] ∧ a.cmp lt d = .ok false := by
  have hg : GroupBuilt lt (trGrp lt) := .nameLang _ _ .create
  obtain ⟨a, ha, he, sa⟩ := made (lt := lt) [.addGroup (trGrp lt)] (by simp [DocCall.Good, hg])
  have ia := docBuilt_inv ha
  have e := group_inter (lt := lt) (trGrp lt) (trGrp lt) rfl rfl
  have sa' := shows_unique (shows_content ia) sa
  obtain ⟨d, h1, i1, c1, r1⟩ := intersect_ok ia ia he
    (lg := [⟨intersectProps lt (trGrp lt).props (trGrp lt).props, RTree.create, RTree.create,
      some (common Package.name [] [])⟩]) (lk := []) (le := []) (by rw [sa']; rfl)
    (by rw [sa']; rfl) (by rw [sa']; rfl)
  refine ⟨a, d, _, _, ha, sa, ⟨?_, List.nodup_nil, List.nodup_nil⟩, ⟨?_, ?_, ?_⟩, h1,
    shows_content i1, rfl, ?_, ?_⟩
  · exact List.nodup_cons.2 ⟨by simp, List.nodup_nil⟩
  · intro g hg
    simp only [List.foldl, DocCall.effect, noContent, List.nil_append, List.mem_singleton] at hg
    subst hg
    exact ⟨_, rfl⟩
  · exact fun g hg => absurd hg List.not_mem_nil
  · exact fun g hg => absurd hg List.not_mem_nil
  · rw [c1]
    exact congrArg (fun x => [x]) (empty_get _)
  · obtain ⟨x, hx, hx'⟩ := C41_doc_meaning ha (.intersect ha ha h1) sa (shows_content i1)
    rw [hx]
    congr 1
    refine Bool.eq_false_iff.2 fun ht => ?_
    have hgs := (hx'.1 ht).groups
    rw [c1] at hgs
    have hc := hgs.2 0 (trGrp lt) _ rfl rfl
    have := ((C41_group_meaning hg (.intersect hg hg e)).1 hc).2.1 b!"cs"
    rw [empty_get] at this
    have h2 : (trGrp lt).nameByLang.get b!"cs" = some (PVal.str (cs b!"x")) := rfl
    rw [h2] at this
    cases this

/-- C169 is false for a document with two groups of one id: intersected with itself, the second group
is intersected with the first and loses its package. -/
theorem C169_false_ids : ∃ (a d : Doc) (ca c : DocContent), DocBuilt lt a ∧ Shows lt a ca ∧
    FullLists ca ∧ NoTranslations ca ∧ a.intersect lt a = .ok d ∧ Shows lt d c ∧
    ca.groups.map Group.getPackageList = [some [pkg b!"x" b!"2"], some [pkg b!"y" b!"3"]] ∧
    c.groups.map Group.getPackageList = [some [pkg b!"x" b!"2"], some []] := by
  obtain ⟨a, ha, he, sa⟩ := made (lt := lt) [DocCall.setGroups (some [idGrp lt b!"g" [pkg b!"x" b!"2"],
      idGrp lt b!"g" [pkg b!"y" b!"3"]])] (by simp [DocCall.Good, idGrp_built])
  have ia := docBuilt_inv ha
  have sa' := shows_unique (shows_content ia) sa
  have fa : FullLists (content a) := by
    rw [sa']
    refine ⟨fun g hg => ?_, fun g hg => absurd hg List.not_mem_nil, fun g hg => absurd hg List.not_mem_nil⟩
    simp only [List.foldl, DocCall.effect, noContent, Option.getD_some, List.mem_cons,
      List.not_mem_nil, or_false] at hg
    rcases hg with rfl | rfl <;> exact ⟨_, rfl⟩
  have xa := contents_built ia
  have g1 := docIntersectList_shared Group.idcmp_iff (groupCommon (lt := lt))
    (fun x h => ⟨xa.1 x h, fa.1 x h⟩) (fun x h => ⟨xa.1 x h, fa.1 x h⟩)
  obtain ⟨d, h1, i1, c1, r1⟩ := intersect_ok ia ia he g1 (lk := []) (le := [])
    (by rw [sa']; rfl) (by rw [sa']; rfl)
  refine ⟨a, d, _, _, ha, shows_content ia, fa, ?_, h1, shows_content i1, ?_, ?_⟩
  · rw [sa']
    refine ⟨fun g hg => ?_, fun g hg => absurd hg List.not_mem_nil, fun g hg => absurd hg List.not_mem_nil⟩
    simp only [List.foldl, DocCall.effect, noContent, Option.getD_some, List.mem_cons,
      List.not_mem_nil, or_false] at hg
    rcases hg with rfl | rfl <;> exact fun k => ⟨empty_get k, empty_get k⟩
  · rw [sa']; rfl
  · rw [c1, sa']; rfl

/-- Documents meeting the conditions of both theorems. -/
example : ∃ (a : Doc) (ca : DocContent), DocBuilt lt a ∧ a.encoding = some (cs b!"UTF-8") ∧
    Shows lt a ca ∧ DistinctIds ca ∧ FullLists ca ∧ EnvsOnce ca ∧ NoTranslations ca ∧
    (∀ k, ca.langpacks.get k = none) ∧ ca.groups.length = 2 := by
  obtain ⟨a, ha, he, sa⟩ := made (lt := lt) [.addGroup (idGrp lt b!"g" [pkg b!"a" b!"1"]),
    .addGroup (idGrp lt b!"h" [pkg b!"c" b!"1"])] (by simp [DocCall.Good, idGrp_built])
  refine ⟨a, _, ha, he, sa, ⟨?_, List.nodup_nil, List.nodup_nil⟩, ⟨?_, ?_, ?_⟩, ?_, ⟨?_, ?_, ?_⟩,
    empty_get, rfl⟩
  · show [some (PVal.str (cs b!"g")), some (PVal.str (cs b!"h"))].Nodup
    decide
  · intro g hg
    simp only [List.foldl, DocCall.effect, noContent, List.nil_append, List.cons_append, List.mem_cons,
      List.not_mem_nil, or_false] at hg
    rcases hg with rfl | rfl <;> exact ⟨_, rfl⟩
  · exact fun g hg => absurd hg List.not_mem_nil
  · exact fun g hg => absurd hg List.not_mem_nil
  · exact fun g hg => absurd hg List.not_mem_nil
  · intro g hg
    simp only [List.foldl, DocCall.effect, noContent, List.nil_append, List.cons_append, List.mem_cons,
      List.not_mem_nil, or_false] at hg
    rcases hg with rfl | rfl <;> exact fun k => ⟨empty_get k, empty_get k⟩
  · exact fun g hg => absurd hg List.not_mem_nil
  · exact fun g hg => absurd hg List.not_mem_nil

end Comps.Props

#print axioms Comps.Props.C169_order_partial
#print axioms Comps.Props.C169_self_partial
#print axioms Comps.Props.C169_false
#print axioms Comps.Props.C169_false_ids
