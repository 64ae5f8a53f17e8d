import Verif.Props.Doc
import Verif.Lemmas.Query

/-!
# Architecture filtering of documents and queries (C25, C26)
-/

namespace Comps.Props
open Comps Comps.Spec Comps.Obj

variable {lt : UInt8 → UInt8 → Bool}

/-! ## C25: architecture filtering of documents -/

/-- `r` is the group `g` with the wanted packages only. -/
structure FilteredGroup (req : List CStr) (r g : Group) : Prop where
  props : SameDict r.props g.props
  name : SameDict r.nameByLang g.nameByLang
  desc : SameDict r.descByLang g.descByLang
  packages : r.getPackageList = g.getPackageList.map (·.filter fun p => Wanted req p.getArches)

/-- `r` is the category `g` with the wanted group ids only. -/
structure FilteredCategory (req : List CStr) (r g : Category) : Prop where
  props : SameDict r.props g.props
  name : SameDict r.nameByLang g.nameByLang
  desc : SameDict r.descByLang g.descByLang
  ids : r.getGroupIds = g.getGroupIds.map (·.filter fun p => Wanted req p.getArches)

/-- `r` is the environment `g` with the wanted group ids only. -/
structure FilteredEnv (req : List CStr) (r g : Env) : Prop where
  props : SameDict r.props g.props
  name : SameDict r.nameByLang g.nameByLang
  desc : SameDict r.descByLang g.descByLang
  groups : r.getGroupList = g.getGroupList.map (·.filter fun p => Wanted req p.getArches)
  options : r.getOptionList = g.getOptionList.map (·.filter fun p => Wanted req p.getArches)

/-- No list of architectures in the document is there but empty. -/
structure PlainArches (c : DocContent) : Prop where
  groups : ∀ g ∈ c.groups, archesOf g.props ≠ some [] ∧
    ∀ p ∈ g.getPackageList.getD [], p.getArches ≠ some []
  categories : ∀ g ∈ c.categories, archesOf g.props ≠ some [] ∧
    ∀ p ∈ g.getGroupIds.getD [], p.getArches ≠ some []
  environments : ∀ g ∈ c.environments, archesOf g.props ≠ some [] ∧
    (∀ p ∈ g.getGroupList.getD [], p.getArches ≠ some []) ∧
    ∀ p ∈ g.getOptionList.getD [], p.getArches ≠ some []

theorem getArches_ok {t : RTree PVal} (h : PropInv lt t) : getArchesProp t = .ok (archesOf t) := by
  unfold getArchesProp archesOf
  cases e : t.get b!"arches" with
  | none => rfl
  | some v =>
    have hk : (b!"arches", kind v) ∈ propKinds := h.typed.get h.wf e
    cases v with
    | list l => rfl
    | str s => exact absurd hk (by simp only [kind]; decide)
    | num s => exact absurd hk (by simp only [kind]; decide)

theorem keep_wanted (req : List CStr) {e : Option (List CStr)} (he : e ≠ some []) :
    archKeep req e = decide (Wanted req e) := archKeep_eq req e he

theorem filter_alike {α : Type} {props : α → RTree PVal} {filter : α → Res α} {req : List CStr}
    {l : List α} (hp : ∀ x ∈ l, PropInv lt (props x)) {R : α → α → Prop}
    (hf : ∀ x ∈ l, archKeep req (archesOf (props x)) = true → ∃ r, filter x = .ok r ∧ R r x) :
    ∃ l', docFilterList (fun x => getArchesProp (props x)) filter req l = .ok l' ∧
      Alike R l' (l.filter fun x => archKeep req (archesOf (props x))) := by
  obtain ⟨l', h1, h2, h3⟩ := docFilterList_ok (filter := filter)
    (fun x => archKeep req (archesOf (props x)))
    (fun x hx => ⟨_, getArches_ok (hp x hx), rfl⟩)
    (fun x hx hk => (hf x hx hk).imp fun r h => h.1)
  refine ⟨l', h1, h2, ?_⟩
  intro i r x hr hx
  obtain ⟨r', k1, k2⟩ := h3 i x hx
  rw [hr] at k2; cases k2
  have hm := List.mem_filter.1 (List.mem_of_getElem? hx)
  obtain ⟨r2, q1, q2⟩ := hf x hm.1 hm.2
  rw [k1] at q1; cases q1
  exact q2

/-- C25 for documents with an encoding, without NULL lists of entries and without empty lists of
architectures: exactly the wanted groups, categories and environments are kept, in order, and of
each exactly the wanted packages or group ids.  Missing: the other documents
(`C25_doc_false_encoding`, `C25_null_false`, `C25_doc_false`). -/
theorem C25_doc_partial {a : Doc} (ha : DocBuilt lt a) {e : CStr} (he : a.encoding = some e)
    {ca : DocContent} (sa : Shows lt a ca) (fa : FullLists ca) (pa : PlainArches ca)
    (req : List CStr) :
    ∃ d c, a.archFilter lt req = .ok d ∧ Shows lt d c ∧
      Alike (FilteredGroup req) c.groups (ca.groups.filter fun g => Wanted req (archesOf g.props)) ∧
      Alike (FilteredCategory req) c.categories
        (ca.categories.filter fun g => Wanted req (archesOf g.props)) ∧
      Alike (FilteredEnv req) c.environments
        (ca.environments.filter fun g => Wanted req (archesOf g.props)) := by
  have ia := docBuilt_inv ha
  rw [shows_unique sa (shows_content ia)] at *
  have xa := contents_built ia
  obtain ⟨lg, g1, g2⟩ := filter_alike (props := Group.props) (R := FilteredGroup req)
    (filter := fun g => g.archFilter req) (req := req)
    (fun g hg => (groupBuilt_inv (xa.1 g hg)).props) (by
      intro g hg _
      obtain ⟨l, hl⟩ := fa.1 g hg
      obtain ⟨r, h1, h2, h3⟩ := C25_group_partial (xa.1 g hg) l req hl
        (by have := (pa.groups g hg).2; rwa [hl] at this)
      exact ⟨r, h1, fun k => (h3 k).1, fun k => (h3 k).2.1, fun k => (h3 k).2.2, by rw [h2, hl]; rfl⟩)
  obtain ⟨lk, k1, k2⟩ := filter_alike (props := Category.props) (R := FilteredCategory req)
    (filter := fun g => g.archFilter req) (req := req)
    (fun g hg => (categoryBuilt_inv (xa.2.1 g hg)).props) (by
      intro g hg _
      obtain ⟨l, hl⟩ := fa.2.1 g hg
      obtain ⟨r, h1, h2, h3⟩ := C25_category_partial (xa.2.1 g hg) l req hl
        (by have := (pa.categories g hg).2; rwa [hl] at this)
      exact ⟨r, h1, fun k => (h3 k).1, fun k => (h3 k).2.1, fun k => (h3 k).2.2, by rw [h2, hl]; rfl⟩)
  obtain ⟨le, e1, e2⟩ := filter_alike (props := Env.props) (R := FilteredEnv req)
    (filter := fun g => g.archFilter req) (req := req)
    (fun g hg => (envBuilt_inv (xa.2.2.1 g hg)).props) (by
      intro g hg _
      obtain ⟨⟨l, hl⟩, o, ho⟩ := fa.2.2 g hg
      obtain ⟨r, h1, h2, h2', h3⟩ := C25_env_partial (xa.2.2.1 g hg) l o req hl ho
        (by have := (pa.environments g hg).2.1; rwa [hl] at this)
        (by have := (pa.environments g hg).2.2; rwa [ho] at this)
      exact ⟨r, h1, fun k => (h3 k).1, fun k => (h3 k).2.1, fun k => (h3 k).2.2, by rw [h2, hl]; rfl,
        by rw [h2', ho]; rfl⟩)
  obtain ⟨d, h1, h2, h3, -⟩ := archFilter_ok ia he g1 k1 e1
  refine ⟨d, _, h1, shows_content h2, ?_⟩
  rw [h3]
  refine ⟨?_, ?_, ?_⟩
  · show Alike _ lg _
    rw [List.filter_congr fun g hg => keep_wanted req (pa.groups g hg).1] at g2; exact g2
  · show Alike _ lk _
    rw [List.filter_congr fun g hg => keep_wanted req (pa.categories g hg).1] at k2; exact k2
  · show Alike _ le _
    rw [List.filter_congr fun g hg => keep_wanted req (pa.environments g hg).1] at e2; exact e2

/-- C25 is false for every document without encoding. -/
theorem C25_doc_false_encoding {a : Doc} (he : a.encoding = none) (req : List CStr) :
    a.archFilter lt req = .error .nullDeref := by
  simp [Doc.archFilter, he, Doc.create, bind, Except.bind]

/-- A group with architectures and packages. -/
def archGrp (lt : UInt8 → UInt8 → Bool) (arches : List CStr) (l : List Package) : Group :=
  (propGrp lt [.arches (some arches)]).setPackageList (some l)
theorem archGrp_built (arches : List CStr) (l : List Package) :
    GroupBuilt lt (archGrp lt arches l) := .setPackages _ (propGrp_built _)

/-- C25 is false for documents with a group whose list of architectures is there but empty: it
names no architecture and is dropped. -/
theorem C25_doc_false : ∃ (a d : Doc) (ca c : DocContent) (req : List CStr) (g : Group),
    DocBuilt lt a ∧ Shows lt a ca ∧ a.archFilter lt req = .ok d ∧ Shows lt d c ∧
    g ∈ ca.groups ∧ Wanted req (archesOf g.props) ∧ c.groups = [] := by
  obtain ⟨a, h2, h3, h4⟩ := made (lt := lt) [.addGroup (archGrp lt [] [])]
    (by simp [DocCall.Good, archGrp_built])
  have ia := docBuilt_inv h2
  have hc := shows_unique (shows_content ia) h4
  obtain ⟨d, k1, k2, k3, -⟩ := archFilter_ok (lt := lt) (req := [cs b!"x86_64"]) (lg := []) (lk := [])
    (le := []) ia h3 (by rw [hc]; rfl) (by rw [hc]; rfl) (by rw [hc]; rfl)
  exact ⟨a, d, _, _, [cs b!"x86_64"], archGrp lt [] [], h2, h4, k1, shows_content k2,
    List.mem_cons_self .., Or.inl rfl, by rw [k3]⟩

/-- C25: filtering a filtered document again with the same architectures gives the same entries. -/
theorem C25_doc_idempotent {a d : Doc} (ha : DocBuilt lt a) {req : List CStr}
    (h : a.archFilter lt req = .ok d) :
    ∃ d' c c', d.archFilter lt req = .ok d' ∧ Shows lt d c ∧ Shows lt d' c' ∧
      Alike SameGroup c'.groups c.groups ∧ Alike SameCategory c'.categories c.categories ∧
      Alike SameEnv c'.environments c.environments := by
  have ia := docBuilt_inv ha
  have xa := contents_built ia
  obtain ⟨e, lg, lk, le, he, h1, h2, h3⟩ := archFilter_inv ia h
  obtain ⟨d1, k1, k2, k3, k4⟩ := archFilter_ok ia he h1 h2 h3
  rw [h] at k1; cases k1
  have xd := contents_built k2
  have hed : d.encoding = some e := by rw [rest_encoding k4]; rfl
  have all : ∀ {α : Type} (l : List α) (p : α → Bool), (∀ x ∈ l, p x = true) → l.filter p = l :=
    fun l p h => List.filter_eq_self.2 h
  have same : ∀ {t t' : RTree PVal}, SameDict t t' → archesOf t = archesOf t' := by
    intro t t' hs; unfold archesOf; rw [hs]
  -- groups
  have keepG : ∀ r ∈ lg, archKeep req (archesOf r.props) = true ∧
      ∃ r', r.archFilter req = .ok r' ∧ SameGroup r' r := by
    intro r hr
    obtain ⟨x, hx, q1, y, q2, q3⟩ := docFilterList_mem h1 r hr
    have i := groupBuilt_inv (xa.1 x hx)
    have j := groupBuilt_inv (filterG_built xa.1 h1 r hr)
    rw [getArches_ok i.props] at q2; cases q2
    simp only [Group.archFilter] at q1
    split at q1
    · simp at q1
    · simp at q1; subst q1
      refine ⟨?_, _, rfl, fun k => copy_same j.props.reachable k, fun k => copy_same j.name.reach k,
        fun k => copy_same j.desc.reach k, by
          simp [Group.getPackageList, filter_copy Package.copy_eq, List.filter_filter]⟩
      rw [← q3]
      exact congrArg _ (same fun k => copy_same i.props.reachable k)
  have keepK : ∀ r ∈ lk, archKeep req (archesOf r.props) = true ∧
      ∃ r', r.archFilter req = .ok r' ∧ SameCategory r' r := by
    intro r hr
    obtain ⟨x, hx, q1, y, q2, q3⟩ := docFilterList_mem h2 r hr
    have i := categoryBuilt_inv (xa.2.1 x hx)
    have j := categoryBuilt_inv (filterK_built xa.2.1 h2 r hr)
    rw [getArches_ok i.props] at q2; cases q2
    simp only [Category.archFilter] at q1
    split at q1
    · simp at q1
    · simp at q1; subst q1
      refine ⟨?_, _, rfl, fun k => copy_same j.props.reachable k, fun k => copy_same j.name.reach k,
        fun k => copy_same j.desc.reach k, by
          simp [Category.getGroupIds, filter_copy GroupId.copy_eq, List.filter_filter]⟩
      rw [← q3]
      exact congrArg _ (same fun k => copy_same i.props.reachable k)
  have keepE : ∀ r ∈ le, archKeep req (archesOf r.props) = true ∧
      ∃ r', r.archFilter req = .ok r' ∧ SameEnv r' r := by
    intro r hr
    obtain ⟨x, hx, q1, y, q2, q3⟩ := docFilterList_mem h3 r hr
    have i := envBuilt_inv (xa.2.2.1 x hx)
    have j := envBuilt_inv (filterE_built xa.2.2.1 h3 r hr)
    rw [getArches_ok i.props] at q2; cases q2
    simp only [Env.archFilter] at q1
    split at q1
    · simp at q1
    · split at q1
      · simp at q1
      · simp at q1; subst q1
        refine ⟨?_, _, rfl, fun k => copy_same j.props.reachable k, fun k => copy_same j.name.reach k,
          fun k => copy_same j.desc.reach k, by
            simp [Env.getGroupList, filter_copy GroupId.copy_eq, List.filter_filter], by
            simp [Env.getOptionList, filter_copy GroupId.copy_eq, List.filter_filter]⟩
        rw [← q3]
        exact congrArg _ (same fun k => copy_same i.props.reachable k)
  rw [k3] at xd
  obtain ⟨lg', g1, g2⟩ := filter_alike (props := Group.props) (R := SameGroup) (req := req)
    (filter := fun g => g.archFilter req)
    (fun g hg => (groupBuilt_inv (xd.1 g hg)).props) fun x hx _ => (keepG x hx).2
  obtain ⟨lk', l1, l2⟩ := filter_alike (props := Category.props) (R := SameCategory) (req := req)
    (filter := fun g => g.archFilter req)
    (fun g hg => (categoryBuilt_inv (xd.2.1 g hg)).props) fun x hx _ => (keepK x hx).2
  obtain ⟨le', e1, e2⟩ := filter_alike (props := Env.props) (R := SameEnv) (req := req)
    (filter := fun g => g.archFilter req)
    (fun g hg => (envBuilt_inv (xd.2.2.1 g hg)).props) fun x hx _ => (keepE x hx).2
  obtain ⟨d2, q1, q2, q3, -⟩ := archFilter_ok (lt := lt) (req := req) k2 hed (by rw [k3]; exact g1)
    (by rw [k3]; exact l1) (by rw [k3]; exact e1)
  refine ⟨d2, _, _, q1, shows_content k2, shows_content q2, ?_⟩
  rw [k3, q3]
  refine ⟨?_, ?_, ?_⟩
  · rw [all lg _ fun x hx => (keepG x hx).1] at g2; exact g2
  · rw [all lk _ fun x hx => (keepK x hx).1] at l2; exact l2
  · rw [all le _ fun x hx => (keepE x hx).1] at e2; exact e2

/-- A document meeting the hypotheses of `C25_doc_partial`, with a group that is dropped. -/
example : ∃ (a : Doc) (ca : DocContent), DocBuilt lt a ∧ a.encoding = some (cs b!"UTF-8") ∧
    Shows lt a ca ∧ FullLists ca ∧ PlainArches ca ∧
    (ca.groups.filter fun g => Wanted [cs b!"arm"] (archesOf g.props)).map Group.getPackageList =
      [some [pkg b!"b" b!"2"]] := by
  obtain ⟨a, h2, h3, h4⟩ := made (lt := lt)
    [.addGroup (archGrp lt [cs b!"i386"] [pkg b!"a" b!"1"]),
      .addGroup (archGrp lt [cs b!"i386", cs b!"arm"] [pkg b!"b" b!"2"])]
    (by simp [DocCall.Good, archGrp_built])
  refine ⟨a, _, h2, h3, h4, ?_, ?_, rfl⟩
  · refine ⟨?_, by simp [DocCall.effect, noContent], by simp [DocCall.effect, noContent]⟩
    intro g hg
    simp [DocCall.effect, noContent] at hg
    rcases hg with rfl | rfl <;> exact ⟨_, rfl⟩
  · refine ⟨?_, by simp [DocCall.effect, noContent], by simp [DocCall.effect, noContent]⟩
    intro g hg
    simp [DocCall.effect, noContent] at hg
    rcases hg with rfl | rfl
    · refine ⟨show some [cs b!"i386"] ≠ some [] by simp, ?_⟩
      show ∀ p ∈ [pkg b!"a" b!"1"], _
      intro p hp; rw [List.mem_singleton.1 hp]; decide
    · refine ⟨show some [cs b!"i386", cs b!"arm"] ≠ some [] by simp, ?_⟩
      show ∀ p ∈ [pkg b!"b" b!"2"], _
      intro p hp; rw [List.mem_singleton.1 hp]; decide

/-! ## C26: queries -/

/-- C26: a query for categories returns, in document order, exactly the categories that match each
of the criteria given; with a language given, the translations are looked at instead of name and
description.  `fn` is the matching function of the C library.  Missing: categories with a string
object without text (`C26_false_null`). -/
theorem C26_categories_partial (fn : Bytes → Bytes → Bool) {d : Doc} (hd : DocBuilt lt d)
    {c : DocContent} (hs : Shows lt d c) (q : Query)
    (ht : ∀ g ∈ c.categories, Texts g.props ∧ Texts g.nameByLang ∧ Texts g.descByLang) :
    d.getCategories lt fn q = .ok (c.categories.filter fun g =>
      fits fn q.id (idOf g.props) &&
      fits fn q.name (shown (g.props.get b!"name") g.nameByLang q.lang) &&
      fits fn q.desc (shown (g.props.get b!"desc") g.descByLang q.lang)) := by
  have i := docBuilt_inv hd
  obtain ⟨d', e⟩ := hs.categories
  have xb := (contents_built i).2.1
  rw [← shows_unique hs (shows_content i)] at xb
  simp only [Doc.getCategories, e, bind, Except.bind]
  refine queryLoop_eq _ fun g hg => ?_
  obtain ⟨t1, t2, t3⟩ := ht g hg
  have j := categoryBuilt_inv (xb g hg)
  simp only [categoryMatches, matchId_ok fn j.props t1, matchLang_ok fn j.props j.name t1 t2
    (k := b!"name") (by simp), matchLang_ok fn j.props j.desc t1 t3 (k := b!"desc") (by simp), bind,
    Except.bind, pure, Except.pure, Query.max]
  rw [hits _ _ _ _ _ _ (fits_none _ _ _) (fits_none _ _ _) (fits_none _ _ _)]

/-- C26: the same for environments. -/
theorem C26_environments_partial (fn : Bytes → Bytes → Bool) {d : Doc} (hd : DocBuilt lt d)
    {c : DocContent} (hs : Shows lt d c) (q : Query)
    (ht : ∀ g ∈ c.environments, Texts g.props ∧ Texts g.nameByLang ∧ Texts g.descByLang) :
    d.getEnvs lt fn q = .ok (c.environments.filter fun g =>
      fits fn q.id (idOf g.props) &&
      fits fn q.name (shown (g.props.get b!"name") g.nameByLang q.lang) &&
      fits fn q.desc (shown (g.props.get b!"desc") g.descByLang q.lang)) := by
  have i := docBuilt_inv hd
  obtain ⟨d', e⟩ := hs.environments
  have xb := (contents_built i).2.2.1
  rw [← shows_unique hs (shows_content i)] at xb
  simp only [Doc.getEnvs, e, bind, Except.bind]
  refine queryLoop_eq _ fun g hg => ?_
  obtain ⟨t1, t2, t3⟩ := ht g hg
  have j := envBuilt_inv (xb g hg)
  simp only [envMatches, matchId_ok fn j.props t1, matchLang_ok fn j.props j.name t1 t2
    (k := b!"name") (by simp), matchLang_ok fn j.props j.desc t1 t3 (k := b!"desc") (by simp), bind,
    Except.bind, pure, Except.pure, Query.max]
  rw [hits _ _ _ _ _ _ (fits_none _ _ _) (fits_none _ _ _) (fits_none _ _ _)]

/-- C26: what a query for groups returns: as for categories, but with a language given, a
description matches if the translation or the untranslated description does. -/
theorem C26_groups_what (fn : Bytes → Bytes → Bool) {d : Doc} (hd : DocBuilt lt d)
    {c : DocContent} (hs : Shows lt d c) (q : Query)
    (ht : ∀ g ∈ c.groups, Texts g.props ∧ Texts g.nameByLang ∧ Texts g.descByLang) :
    d.getGroups lt fn q = .ok (c.groups.filter fun g =>
      fits fn q.id (idOf g.props) &&
      fits fn q.name (shown (g.props.get b!"name") g.nameByLang q.lang) &&
      (fits fn q.desc (g.props.get b!"desc") ||
        (q.lang.isSome && fits fn q.desc (shown (g.props.get b!"desc") g.descByLang q.lang)))) := by
  have i := docBuilt_inv hd
  obtain ⟨d', e⟩ := hs.groups
  have xb := (contents_built i).1
  rw [← shows_unique hs (shows_content i)] at xb
  simp only [Doc.getGroups, e, bind, Except.bind]
  refine queryLoop_eq _ fun g hg => ?_
  obtain ⟨t1, t2, t3⟩ := ht g hg
  have j := groupBuilt_inv (xb g hg)
  simp only [groupMatches, matchId_ok fn j.props t1, matchLang_ok fn j.props j.name t1 t2
    (k := b!"name") (by simp), matchDescGroup_ok fn j.props j.desc t1 t3, bind,
    Except.bind, pure, Except.pure, Query.max]
  rw [hits _ _ _ _ _ _ (fits_none _ _ _) (fits_none _ _ _)]
  intro hn; rw [hn]; rfl

/-- C26 for groups, if no language or no description is given.  Missing: description and language
(`C26_false`), strings without text (`C26_false_null`). -/
theorem C26_groups_partial (fn : Bytes → Bytes → Bool) {d : Doc} (hd : DocBuilt lt d)
    {c : DocContent} (hs : Shows lt d c) (q : Query) (hq : q.lang = none ∨ q.desc = none)
    (ht : ∀ g ∈ c.groups, Texts g.props ∧ Texts g.nameByLang ∧ Texts g.descByLang) :
    d.getGroups lt fn q = .ok (c.groups.filter fun g =>
      fits fn q.id (idOf g.props) &&
      fits fn q.name (shown (g.props.get b!"name") g.nameByLang q.lang) &&
      fits fn q.desc (shown (g.props.get b!"desc") g.descByLang q.lang)) := by
  rw [C26_groups_what fn hd hs q ht]
  refine congrArg _ (List.filter_congr fun g _ => ?_)
  congr 1
  rcases hq with h | h
  · rw [h]; simp [shown]
  · rw [h]; rfl

/-- A group with a description and one translation of it. -/
def descGrp (lt : UInt8 → UInt8 → Bool) (desc lang : Bytes) (s : CStr) : Group :=
  let g := propGrp lt [.str .desc desc]
  { g with descByLang := g.descByLang.set lt lang (some (.str s)) }
theorem descGrp_built (desc lang : Bytes) (s : CStr) : GroupBuilt lt (descGrp lt desc lang s) :=
  .descLang _ _ (propGrp_built _)

/-- C26 is false for groups: a query for the description "x" in the language "cs" returns a group
whose description in that language is "y". -/
theorem C26_false : ∃ (d : Doc) (c : DocContent) (q : Query) (g : Group), DocBuilt lt d ∧
    Shows lt d c ∧ d.getGroups lt (fun p t => p == t) q = .ok [g] ∧
    q = ⟨none, none, some b!"x", some b!"cs"⟩ ∧
    g.descByLang.get b!"cs" = some (.str (cs b!"y")) := by
  obtain ⟨a, h2, h3, h4⟩ := made (lt := lt) [.addGroup (descGrp lt b!"x" b!"cs" (cs b!"y"))]
    (by simp [DocCall.Good, descGrp_built])
  refine ⟨a, _, _, descGrp lt b!"x" b!"cs" (cs b!"y"), h2, h4, ?_, rfl, rfl⟩
  obtain ⟨d', e⟩ := h4.groups
  simp only [Doc.getGroups, e, bind, Except.bind]
  rfl

/-- C26 is false for entries with a string object without text, which the language dictionaries may
hold: the query passes NULL to the matching function. -/
theorem C26_false_null : ∃ (d : Doc) (c : DocContent) (q : Query), DocBuilt lt d ∧ Shows lt d c ∧
    ∀ fn, d.getGroups lt fn q = .error .nullDeref := by
  obtain ⟨a, h2, h3, h4⟩ := made (lt := lt)
    [.addGroup { Group.create with nameByLang := RTree.create.set lt b!"cs" (some (.str ⟨none⟩)) }]
    (by
      intro x hx
      rw [List.mem_singleton.1 hx]
      exact GroupBuilt.nameLang b!"cs" ⟨none⟩ .create)
  refine ⟨a, _, ⟨none, some b!"x", none, some b!"cs"⟩, h2, h4, fun fn => ?_⟩
  obtain ⟨d', e⟩ := h4.groups
  simp only [Doc.getGroups, e, bind, Except.bind]
  rfl

/-- C26: a query for the packages of a group returns, in order, exactly those with the given name
(if one is given) and the given type (if one is given; `unknown` stands for none). -/
theorem C26_packages (g : Group) (name : Option Bytes) (type : Text.PkgType) :
    g.getPackages name type = (g.getPackageList.getD []).filter fun p =>
      decide ((∀ n, name = some n → p.getName = some (cs n)) ∧ (type ≠ .unknown → p.type = type)) := by
  unfold Group.getPackages Group.getPackageList
  refine List.filter_congr fun p _ => ?_
  rw [Bool.eq_iff_iff, decide_eq_true_iff]
  unfold Group.pkgMatches Package.getName
  cases name with
  | none => by_cases ht : type = .unknown <;> by_cases h2 : p.type = type <;> simp [ht, h2]
  | some n =>
    have : objCmp CStr.cmp p.name (some (compsStr (some n))) = true ↔ p.name = some (cs n) :=
      objCmp_iff CStr.cmp_iff _ _
    by_cases h1 : p.name = some (cs n)
    · have h1' := this.2 h1
      by_cases ht : type = .unknown <;> by_cases h2 : p.type = type <;> simp [ht, h2, h1] <;>
        simp_all [cs, compsStr]
    · have h1' : objCmp CStr.cmp p.name (some (compsStr (some n))) = false := by
        rw [← Bool.not_eq_true]; exact fun h => h1 (this.1 h)
      by_cases ht : type = .unknown <;> by_cases h2 : p.type = type <;> simp [ht, h2, h1, h1']

example : (grp [pkg b!"a" b!"1", pkg b!"b" b!"1", pkg b!"a" b!"2"]).getPackages (some b!"a") .unknown =
    [pkg b!"a" b!"1", pkg b!"a" b!"2"] := by decide

/-- A document meeting the hypotheses of the query theorems. -/
example : ∃ (d : Doc) (c : DocContent), DocBuilt lt d ∧ Shows lt d c ∧
    (∀ g ∈ c.groups, Texts g.props ∧ Texts g.nameByLang ∧ Texts g.descByLang) ∧
    (c.groups.filter fun g => fits (· == ·) (some b!"h") (idOf g.props)).map Group.getPackageList =
      [some [pkg b!"b" b!"2"]] := by
  obtain ⟨a, h2, h3, h4⟩ := made (lt := lt) [.addGroup (idGrp lt b!"g" [pkg b!"a" b!"1"]),
    .addGroup (idGrp lt b!"h" [pkg b!"b" b!"2"])] (by simp [DocCall.Good, idGrp_built])
  have none_text : ∀ k, (RTree.create : RTree PVal).get k ≠ some (.str ⟨none⟩) := by
    intro k; rw [create_get]; simp
  have one : ∀ id l, Texts (idGrp lt id l).props := by
    intro id l k
    have : (idGrp lt id l).props = RTree.create.set lt b!"id" (some (.str (cs id))) := rfl
    rw [this, PropInv.create.set_get b!"id" (by decide)]
    split
    · simp [cs]
    · exact none_text k
  refine ⟨a, _, h2, h4, ?_, rfl⟩
  intro g hg
  simp [DocCall.effect, noContent] at hg
  rcases hg with rfl | rfl
  · exact ⟨one _ _, none_text, none_text⟩
  · exact ⟨one _ _, none_text, none_text⟩

end Comps.Props

section
open Comps.Props
#print axioms C25_doc_partial
#print axioms C25_doc_false_encoding
#print axioms C25_doc_false
#print axioms C25_doc_idempotent
#print axioms C26_categories_partial
#print axioms C26_environments_partial
#print axioms C26_groups_what
#print axioms C26_groups_partial
#print axioms C26_false
#print axioms C26_false_null
#print axioms C26_packages
end
