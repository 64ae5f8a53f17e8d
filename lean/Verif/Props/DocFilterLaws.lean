import Verif.Lemmas.FilterLaws
import Verif.Props.FilterLaws
import Verif.Props.DocFilter
import Verif.Props.DocLaws

/-!
# Filtering documents by architecture before or after merging them (C170)

`Shows lt d c` says that `c` is what the getters of the document `d` return; `cmp` is the comparison
of the library.
-/

namespace Comps.Props
open Comps Comps.Spec Comps.Obj

variable {lt : UInt8 → UInt8 → Bool}

/-- Entries of one id have the same architectures in both documents, and so have their packages or
group ids of one name. -/
structure Agree (ca cb : DocContent) : Prop where
  groups : ∀ x ∈ ca.groups, ∀ y ∈ cb.groups, idOf x.props = idOf y.props →
    archesOf x.props = archesOf y.props ∧ OneArches Package.getName Package.getArches
      (x.getPackageList.getD [] ++ y.getPackageList.getD [])
  categories : ∀ x ∈ ca.categories, ∀ y ∈ cb.categories, idOf x.props = idOf y.props →
    archesOf x.props = archesOf y.props ∧ OneArches GroupId.getName GroupId.getArches
      (x.getGroupIds.getD [] ++ y.getGroupIds.getD [])
  environments : ∀ x ∈ ca.environments, ∀ y ∈ cb.environments, idOf x.props = idOf y.props →
    archesOf x.props = archesOf y.props ∧ OneArches GroupId.getName GroupId.getArches
      (x.getGroupList.getD [] ++ y.getGroupList.getD []) ∧
    OneArches GroupId.getName GroupId.getArches
      (x.getOptionList.getD [] ++ y.getOptionList.getD [])

/-! ## The filtered entries -/

/-- The group left, if its list is not NULL. -/
def leftGroup (req : List CStr) (g : Group) : Group :=
  ⟨g.props.copy PVal.copy, g.nameByLang.copy PVal.copy, g.descByLang.copy PVal.copy,
    some ((g.getPackageList.getD []).filter fun p => archKeep req p.arches)⟩
/-- The category left, if its list is not NULL. -/
def leftCategory (req : List CStr) (g : Category) : Category :=
  ⟨g.props.copy PVal.copy, g.nameByLang.copy PVal.copy, g.descByLang.copy PVal.copy,
    some ((g.getGroupIds.getD []).filter fun p => archKeep req p.arches)⟩
/-- The environment left, if its lists are not NULL. -/
def leftEnv (req : List CStr) (g : Env) : Env :=
  ⟨g.props.copy PVal.copy, g.nameByLang.copy PVal.copy, g.descByLang.copy PVal.copy,
    some ((g.getGroupList.getD []).filter fun p => archKeep req p.arches),
    some ((g.getOptionList.getD []).filter fun p => archKeep req p.arches)⟩

theorem leftGroup_eq (req : List CStr) {g : Group} (h : ∃ l, g.getPackageList = some l) :
    g.archFilter req = .ok (leftGroup req g) := by
  obtain ⟨l, h⟩ := h
  rw [filter_packages g h, leftGroup, h]; rfl
theorem leftCategory_eq (req : List CStr) {g : Category} (h : ∃ l, g.getGroupIds = some l) :
    g.archFilter req = .ok (leftCategory req g) := by
  obtain ⟨l, h⟩ := h
  rw [filter_ids g h, leftCategory, h]; rfl
theorem leftEnv_eq (req : List CStr) {g : Env}
    (h : (∃ l, g.getGroupList = some l) ∧ ∃ l, g.getOptionList = some l) :
    g.archFilter req = .ok (leftEnv req g) := by
  obtain ⟨⟨l, h⟩, o, h'⟩ := h
  rw [filter_env g h h', leftEnv, h, h']; rfl

/-! ## Dictionaries -/

theorem dict_left {t t' : RTree PVal} (h : Reachable lt t) (h' : Reachable lt t') :
    SameDict (((t.copy PVal.copy).union lt PVal.copy t').copy PVal.copy)
      (((t.copy PVal.copy).copy PVal.copy).union lt PVal.copy (t'.copy PVal.copy)) := fun k => by
  rw [copy_same ((h.copy _).union h' _) k, union_get (h.copy _) h',
    union_get ((h.copy _).copy _) (h'.copy _), copy_same (h.copy _) k, copy_same h' k]

theorem arches_copy {t : RTree PVal} (h : Reachable lt t) :
    archesOf (t.copy PVal.copy) = archesOf t := by
  unfold archesOf
  rw [copy_same h]

theorem arches_merge {t t' : RTree PVal} (h : Reachable lt t) (h' : Reachable lt t')
    (e : archesOf t = archesOf t') :
    archesOf ((t.copy PVal.copy).union lt PVal.copy t') = archesOf t' := by
  unfold archesOf at *
  rw [union_get (h.copy _) h', copy_same h]
  cases ht : t'.get b!"arches" with
  | none => rw [ht] at e; exact e
  | some v => rfl

theorem copied_packages (g : Group) : g.copy.getPackageList = g.getPackageList := by
  have : Package.copy = id := funext Package.copy_eq
  show objCopy (listCopy Package.copy) g.packages = g.packages
  rw [this]; cases g.packages <;> simp [objCopy, listCopy]
theorem copied_ids (g : Category) : g.copy.getGroupIds = g.getGroupIds := by
  have : GroupId.copy = id := funext GroupId.copy_eq
  show objCopy (listCopy GroupId.copy) g.groupIds = g.groupIds
  rw [this]; cases g.groupIds <;> simp [objCopy, listCopy]
theorem copied_groups (g : Env) : g.copy.getGroupList = g.getGroupList := by
  have : GroupId.copy = id := funext GroupId.copy_eq
  show objCopy (listCopy GroupId.copy) g.groupList = g.groupList
  rw [this]; cases g.groupList <;> simp [objCopy, listCopy]
theorem copied_options (g : Env) : g.copy.getOptionList = g.getOptionList := by
  have : GroupId.copy = id := funext GroupId.copy_eq
  show objCopy (listCopy GroupId.copy) g.optionList = g.optionList
  rw [this]; cases g.optionList <;> simp [objCopy, listCopy]

/-! ## The lists of the documents -/

theorem groups_left (req : List CStr) {a b : List Group} (ha : ∀ g ∈ a, GroupBuilt lt g)
    (hb : ∀ g ∈ b, GroupBuilt lt g) (ua : UniqueNames (fun g : Group => idOf g.props) a)
    (ub : UniqueNames (fun g : Group => idOf g.props) b) (fa : ∀ g ∈ a, ∃ l, g.getPackageList = some l)
    (fb : ∀ g ∈ b, ∃ l, g.getPackageList = some l)
    (hab : ∀ x ∈ a, ∀ y ∈ b, idOf x.props = idOf y.props →
      archesOf x.props = archesOf y.props ∧ OneArches Package.getName Package.getArches
        (x.getPackageList.getD [] ++ y.getPackageList.getD [])) :
    ∃ u la lb, filterG req (docUnionList Group.idcmp Group.copy (Group.union lt) a b) = .ok u ∧
      filterG req a = .ok la ∧ filterG req b = .ok lb ∧
      Alike SameGroup u (docUnionList Group.idcmp Group.copy (Group.union lt) la lb) := by
  have full : ∀ g ∈ docUnionList Group.idcmp Group.copy (Group.union lt) a b,
      GroupBuilt lt g ∧ ∃ l, g.getPackageList = some l := by
    rw [docUnionList_joined Group.idcmp_iff groupMerge ha hb ua ub]
    intro g hg
    rcases List.mem_append.1 hg with h | h
    · obtain ⟨x, hx, rfl⟩ := List.mem_map.1 h
      have hx := (List.mem_filter.1 hx).1
      exact ⟨.copy (ha x hx), by rw [copied_packages]; exact fa x hx⟩
    · obtain ⟨y, hy, rfl⟩ := List.mem_map.1 h
      refine ⟨(joined_ok groupMerge ha (hb y hy)).1, ?_⟩
      unfold joined
      split
      · exact ⟨_, rfl⟩
      · rw [copied_packages]; exact fb y hy
  have one : ∀ {l : List Group}, (∀ g ∈ l, GroupBuilt lt g ∧ ∃ l, g.getPackageList = some l) →
      filterG req l = .ok (l.filterMap (left (fun g => archKeep req (archesOf g.props))
        (leftGroup req))) := fun h =>
    docFilterList_left (fun g hg => ⟨_, getArches_ok (groupBuilt_inv (h g hg).1).props, rfl⟩)
      fun g hg => leftGroup_eq req (h g hg).2
  have keys : ∀ {l : List Group}, (∀ g ∈ l, GroupBuilt lt g) →
      (∀ g ∈ l, ∃ l, g.getPackageList = some l) →
      ∀ g ∈ l, idOf (leftGroup req g).props = idOf g.props ∧ GroupBuilt lt (leftGroup req g) :=
    fun h h' g hg => ⟨copy_same (groupBuilt_inv (h g hg)).props.reachable _,
      .archFilter req (h g hg) (leftGroup_eq req (h' g hg))⟩
  have copies : ∀ {l : List Group}, (∀ g ∈ l, GroupBuilt lt g) → ∀ g ∈ l,
      archKeep req (archesOf g.copy.props) = archKeep req (archesOf g.props) ∧
      SameGroup (leftGroup req g.copy) (leftGroup req g).copy := by
    intro l h g hg
    have i := groupBuilt_inv (h g hg)
    refine ⟨congrArg _ (arches_copy i.props.reachable), ⟨fun _ => rfl, fun _ => rfl, fun _ => rfl, ?_⟩⟩
    rw [copied_packages]
    show some _ = some _
    rw [copied_packages]
  refine ⟨_, _, _, one full, one fun g hg => ⟨ha g hg, fa g hg⟩, one fun g hg => ⟨hb g hg, fb g hg⟩, ?_⟩
  refine filter_docUnionList Group.idcmp_iff groupMerge ha hb ua ub (keys ha fa) (keys hb fb)
    (fun x hx y hy h => congrArg _ (hab x hx y hy h).1) (copies ha) (copies hb) ?_
  intro x hx y hy h
  have i := groupBuilt_inv (ha x hx); have j := groupBuilt_inv (hb y hy)
  obtain ⟨h1, h2⟩ := hab x hx y hy h
  refine ⟨congrArg _ (arches_merge i.props.reachable j.props.reachable h1),
    ⟨dict_left i.props.reachable j.props.reachable, dict_left i.name.reach j.name.reach,
      dict_left i.desc.reach j.desc.reach, ?_⟩⟩
  rw [packages_merge, copied_packages]
  show some (((x.copy.union lt y).getPackageList.getD []).filter _) = _
  rw [packages_merge, copied_packages]
  exact congrArg some (merge_filter Package.name _ _ _ fun p hp q hq hn => by
    have : p.arches = q.arches := h2 p hp q hq hn
    rw [this])

theorem categories_left (req : List CStr) {a b : List Category} (ha : ∀ g ∈ a, CategoryBuilt lt g)
    (hb : ∀ g ∈ b, CategoryBuilt lt g) (ua : UniqueNames (fun g : Category => idOf g.props) a)
    (ub : UniqueNames (fun g : Category => idOf g.props) b)
    (fa : ∀ g ∈ a, ∃ l, g.getGroupIds = some l) (fb : ∀ g ∈ b, ∃ l, g.getGroupIds = some l)
    (hab : ∀ x ∈ a, ∀ y ∈ b, idOf x.props = idOf y.props →
      archesOf x.props = archesOf y.props ∧ OneArches GroupId.getName GroupId.getArches
        (x.getGroupIds.getD [] ++ y.getGroupIds.getD [])) :
    ∃ u la lb, filterK req (docUnionList Category.idcmp Category.copy (Category.union lt) a b) = .ok u ∧
      filterK req a = .ok la ∧ filterK req b = .ok lb ∧
      Alike SameCategory u (docUnionList Category.idcmp Category.copy (Category.union lt) la lb) := by
  have full : ∀ g ∈ docUnionList Category.idcmp Category.copy (Category.union lt) a b,
      CategoryBuilt lt g ∧ ∃ l, g.getGroupIds = some l := by
    rw [docUnionList_joined Category.idcmp_iff categoryMerge ha hb ua ub]
    intro g hg
    rcases List.mem_append.1 hg with h | h
    · obtain ⟨x, hx, rfl⟩ := List.mem_map.1 h
      have hx := (List.mem_filter.1 hx).1
      exact ⟨.copy (ha x hx), by rw [copied_ids]; exact fa x hx⟩
    · obtain ⟨y, hy, rfl⟩ := List.mem_map.1 h
      refine ⟨(joined_ok categoryMerge ha (hb y hy)).1, ?_⟩
      unfold joined
      split
      · exact ⟨_, rfl⟩
      · rw [copied_ids]; exact fb y hy
  have one : ∀ {l : List Category}, (∀ g ∈ l, CategoryBuilt lt g ∧ ∃ l, g.getGroupIds = some l) →
      filterK req l = .ok (l.filterMap (left (fun g => archKeep req (archesOf g.props))
        (leftCategory req))) := fun h =>
    docFilterList_left (fun g hg => ⟨_, getArches_ok (categoryBuilt_inv (h g hg).1).props, rfl⟩)
      fun g hg => leftCategory_eq req (h g hg).2
  have keys : ∀ {l : List Category}, (∀ g ∈ l, CategoryBuilt lt g) →
      (∀ g ∈ l, ∃ l, g.getGroupIds = some l) →
      ∀ g ∈ l, idOf (leftCategory req g).props = idOf g.props ∧ CategoryBuilt lt (leftCategory req g) :=
    fun h h' g hg => ⟨copy_same (categoryBuilt_inv (h g hg)).props.reachable _,
      .archFilter req (h g hg) (leftCategory_eq req (h' g hg))⟩
  have copies : ∀ {l : List Category}, (∀ g ∈ l, CategoryBuilt lt g) → ∀ g ∈ l,
      archKeep req (archesOf g.copy.props) = archKeep req (archesOf g.props) ∧
      SameCategory (leftCategory req g.copy) (leftCategory req g).copy := by
    intro l h g hg
    have i := categoryBuilt_inv (h g hg)
    refine ⟨congrArg _ (arches_copy i.props.reachable), ⟨fun _ => rfl, fun _ => rfl, fun _ => rfl, ?_⟩⟩
    rw [copied_ids]
    show some _ = some _
    rw [copied_ids]
  refine ⟨_, _, _, one full, one fun g hg => ⟨ha g hg, fa g hg⟩, one fun g hg => ⟨hb g hg, fb g hg⟩, ?_⟩
  refine filter_docUnionList Category.idcmp_iff categoryMerge ha hb ua ub (keys ha fa) (keys hb fb)
    (fun x hx y hy h => congrArg _ (hab x hx y hy h).1) (copies ha) (copies hb) ?_
  intro x hx y hy h
  have i := categoryBuilt_inv (ha x hx); have j := categoryBuilt_inv (hb y hy)
  obtain ⟨h1, h2⟩ := hab x hx y hy h
  refine ⟨congrArg _ (arches_merge i.props.reachable j.props.reachable h1),
    ⟨dict_left i.props.reachable j.props.reachable, dict_left i.name.reach j.name.reach,
      dict_left i.desc.reach j.desc.reach, ?_⟩⟩
  rw [ids_merge, copied_ids]
  show some (((x.copy.union lt y).getGroupIds.getD []).filter _) = _
  rw [ids_merge, copied_ids]
  exact congrArg some (merge_filter GroupId.name _ _ _ fun p hp q hq hn => by
    have : p.arches = q.arches := h2 p hp q hq hn
    rw [this])

theorem envs_left (req : List CStr) {a b : List Env} (ha : ∀ g ∈ a, EnvBuilt lt g)
    (hb : ∀ g ∈ b, EnvBuilt lt g) (ua : UniqueNames (fun g : Env => idOf g.props) a)
    (ub : UniqueNames (fun g : Env => idOf g.props) b)
    (fa : ∀ g ∈ a, (∃ l, g.getGroupList = some l) ∧ ∃ l, g.getOptionList = some l)
    (fb : ∀ g ∈ b, (∃ l, g.getGroupList = some l) ∧ ∃ l, g.getOptionList = some l)
    (hab : ∀ x ∈ a, ∀ y ∈ b, idOf x.props = idOf y.props →
      archesOf x.props = archesOf y.props ∧ OneArches GroupId.getName GroupId.getArches
        (x.getGroupList.getD [] ++ y.getGroupList.getD []) ∧
      OneArches GroupId.getName GroupId.getArches
        (x.getOptionList.getD [] ++ y.getOptionList.getD [])) :
    ∃ u la lb, filterE req (docUnionList Env.idcmp Env.copy (Env.union lt) a b) = .ok u ∧
      filterE req a = .ok la ∧ filterE req b = .ok lb ∧
      Alike SameEnv u (docUnionList Env.idcmp Env.copy (Env.union lt) la lb) := by
  have full : ∀ g ∈ docUnionList Env.idcmp Env.copy (Env.union lt) a b,
      EnvBuilt lt g ∧ (∃ l, g.getGroupList = some l) ∧ ∃ l, g.getOptionList = some l := by
    rw [docUnionList_joined Env.idcmp_iff envMerge ha hb ua ub]
    intro g hg
    rcases List.mem_append.1 hg with h | h
    · obtain ⟨x, hx, rfl⟩ := List.mem_map.1 h
      have hx := (List.mem_filter.1 hx).1
      exact ⟨.copy (ha x hx), by rw [copied_groups, copied_options]; exact fa x hx⟩
    · obtain ⟨y, hy, rfl⟩ := List.mem_map.1 h
      refine ⟨(joined_ok envMerge ha (hb y hy)).1, ?_⟩
      unfold joined
      split
      · exact ⟨⟨_, rfl⟩, _, rfl⟩
      · rw [copied_groups, copied_options]; exact fb y hy
  have one : ∀ {l : List Env}, (∀ g ∈ l, EnvBuilt lt g ∧ (∃ l, g.getGroupList = some l) ∧
        ∃ l, g.getOptionList = some l) →
      filterE req l = .ok (l.filterMap (left (fun g => archKeep req (archesOf g.props))
        (leftEnv req))) := fun h =>
    docFilterList_left (fun g hg => ⟨_, getArches_ok (envBuilt_inv (h g hg).1).props, rfl⟩)
      fun g hg => leftEnv_eq req (h g hg).2
  have keys : ∀ {l : List Env}, (∀ g ∈ l, EnvBuilt lt g) →
      (∀ g ∈ l, (∃ l, g.getGroupList = some l) ∧ ∃ l, g.getOptionList = some l) →
      ∀ g ∈ l, idOf (leftEnv req g).props = idOf g.props ∧ EnvBuilt lt (leftEnv req g) :=
    fun h h' g hg => ⟨copy_same (envBuilt_inv (h g hg)).props.reachable _,
      .archFilter req (h g hg) (leftEnv_eq req (h' g hg))⟩
  have copies : ∀ {l : List Env}, (∀ g ∈ l, EnvBuilt lt g) → ∀ g ∈ l,
      archKeep req (archesOf g.copy.props) = archKeep req (archesOf g.props) ∧
      SameEnv (leftEnv req g.copy) (leftEnv req g).copy := by
    intro l h g hg
    have i := envBuilt_inv (h g hg)
    refine ⟨congrArg _ (arches_copy i.props.reachable), ⟨fun _ => rfl, fun _ => rfl, fun _ => rfl, ?_, ?_⟩⟩
    · rw [copied_groups]
      show some _ = some _
      rw [copied_groups]
    · rw [copied_options]
      show some _ = some _
      rw [copied_options]
  refine ⟨_, _, _, one full, one fun g hg => ⟨ha g hg, fa g hg⟩, one fun g hg => ⟨hb g hg, fb g hg⟩, ?_⟩
  refine filter_docUnionList Env.idcmp_iff envMerge ha hb ua ub (keys ha fa) (keys hb fb)
    (fun x hx y hy h => congrArg _ (hab x hx y hy h).1) (copies ha) (copies hb) ?_
  intro x hx y hy h
  have i := envBuilt_inv (ha x hx); have j := envBuilt_inv (hb y hy)
  obtain ⟨h1, h2, h3⟩ := hab x hx y hy h
  refine ⟨congrArg _ (arches_merge i.props.reachable j.props.reachable h1),
    ⟨dict_left i.props.reachable j.props.reachable, dict_left i.name.reach j.name.reach,
      dict_left i.desc.reach j.desc.reach, ?_, ?_⟩⟩
  · rw [groups_merge, copied_groups]
    show some (((x.copy.union lt y).getGroupList.getD []).filter _) = _
    rw [groups_merge, copied_groups]
    exact congrArg some (merge_filter GroupId.name _ _ _ fun p hp q hq hn => by
      have : p.arches = q.arches := h2 p hp q hq hn
      rw [this])
  · rw [options_merge, copied_options]
    show some (((x.copy.union lt y).getOptionList.getD []).filter _) = _
    rw [options_merge, copied_options]
    exact congrArg some (merge_filter GroupId.name _ _ _ fun p hp q hq hn => by
      have : p.arches = q.arches := h3 p hp q hq hn
      rw [this])

/-! ## C170 -/

/-- **C170.**  For two documents with an encoding, without NULL lists, each without two entries of one
id, and that agree about the architectures of what both have: merging them and filtering works, so
does filtering both and merging, and both results compare equal and show the same entries in the same
order.  Missing: documents that do not agree (`C170_false`), two entries of one id, NULL lists and
documents without encoding (C25). -/
theorem C170_partial (req : List CStr) {a b : Doc} (ha : DocBuilt lt a) (hb : DocBuilt lt b)
    {e e' : CStr} (he : a.encoding = some e) (he' : b.encoding = some e') {ca cb : DocContent}
    (sa : Shows lt a ca) (sb : Shows lt b cb) (da : DistinctIds ca) (db : DistinctIds cb)
    (fa : FullLists ca) (fb : FullLists cb) (hab : Agree ca cb) :
    ∃ u l ra rb r cl cr, a.union lt b = .ok u ∧ u.archFilter lt req = .ok l ∧
      a.archFilter lt req = .ok ra ∧ b.archFilter lt req = .ok rb ∧ ra.union lt rb = .ok r ∧
      Shows lt l cl ∧ Shows lt r cr ∧ SameEntries cl cr ∧ l.cmp lt r = .ok true := by
  have ia := docBuilt_inv ha; have ib := docBuilt_inv hb
  rw [shows_unique sa (shows_content ia)] at *
  rw [shows_unique sb (shows_content ib)] at *
  have xa := contents_built ia; have xb := contents_built ib
  obtain ⟨gu, ga, gb, g1, g2, g3, gs⟩ := groups_left req xa.1 xb.1 da.groups db.groups fa.1 fb.1
    hab.groups
  obtain ⟨ku, kka, kkb, k1, k2, k3, ks⟩ := categories_left req xa.2.1 xb.2.1 da.categories
    db.categories fa.2.1 fb.2.1 hab.categories
  obtain ⟨eu, ea, eb, e1, e2, e3, es⟩ := envs_left req xa.2.2.1 xb.2.2.1 da.environments
    db.environments fa.2.2 fb.2.2 hab.environments
  obtain ⟨u, h1, i1, c1, r1⟩ := union_ok ia ib he
  obtain ⟨l, h2, i2, c2, r2⟩ := archFilter_ok (req := req) i1 (rest_make e u r1) (lg := gu) (lk := ku)
    (le := eu) (by rw [c1]; exact g1) (by rw [c1]; exact k1) (by rw [c1]; exact e1)
  obtain ⟨ra, h3, i3, c3, r3⟩ := archFilter_ok ia he g2 k2 e2
  obtain ⟨rb, h4, i4, c4, r4⟩ := archFilter_ok ib he' g3 k3 e3
  obtain ⟨r, h5, i5, c5, r5⟩ := union_ok i3 i4 (rest_make e ra r3)
  have xl := contents_built i2; have xr := contents_built i5
  have hs : SameEntries (content l) (content r) := by
    rw [c2, c5, c3, c4]
    exact ⟨gs, ks, es, fun k => ((dict_empty (lt := lt) .create).1 k).symm⟩
  have bl : DocBuilt lt l := .archFilter req (.union ha hb h1) h2
  have br : DocBuilt lt r := .union (.archFilter req ha h3) (.archFilter req hb h4) h5
  refine ⟨u, l, ra, rb, r, _, _, h1, h2, h3, h4, h5, shows_content i2, shows_content i5, hs, ?_⟩
  obtain ⟨x, hx, hx'⟩ := C41_doc_meaning bl br (shows_content i2) (shows_content i5)
  rw [hx]
  congr 1
  have hr : rest l = rest r := r2.trans r5.symm
  simp only [rest, Prod.mk.injEq] at hr
  refine hx'.2 ⟨hr.1, hr.2.1, hr.2.2.1, hr.2.2.2.1, ?_, ?_, ?_, hs.langpacks, ?_, ?_⟩
  · exact alike_imp hs.groups xl.1 xr.1 fun x y => group_same_cmp
  · exact alike_imp hs.categories xl.2.1 xr.2.1 fun x y => category_same_cmp
  · exact alike_imp hs.environments xl.2.2.1 xr.2.2.1 fun x y => env_same_cmp
  · intro k; rw [c2, c5]; rfl
  · intro k; rw [c2, c5]; rfl

/-- C170 is false if the second document has a group of the first for another architecture: merged
first, the group has the second's architectures and is dropped; filtered first, the first document's
group stays. -/
theorem C170_false : ∃ (a b u l ra rb r : Doc) (cl cr : DocContent) (req : List CStr),
    DocBuilt lt a ∧ DocBuilt lt b ∧ a.union lt b = .ok u ∧ u.archFilter lt req = .ok l ∧
    a.archFilter lt req = .ok ra ∧ b.archFilter lt req = .ok rb ∧ ra.union lt rb = .ok r ∧
    Shows lt l cl ∧ Shows lt r cr ∧ cl.groups = [] ∧
    cr.groups.map Group.getPackageList = [some [pkg b!"a" b!"1"]] := by
  obtain ⟨a, ha, he, sa⟩ := made (lt := lt) [.addGroup (archGrp lt [cs b!"x86_64"] [pkg b!"a" b!"1"])]
    (by simp [DocCall.Good, archGrp_built])
  obtain ⟨b, hb, he', sb⟩ := made (lt := lt) [.addGroup (archGrp lt [cs b!"ppc"] [pkg b!"a" b!"1"])]
    (by simp [DocCall.Good, archGrp_built])
  have ia := docBuilt_inv ha; have ib := docBuilt_inv hb
  have sa' := shows_unique (shows_content ia) sa
  have sb' := shows_unique (shows_content ib) sb
  obtain ⟨u, h1, i1, c1, r1⟩ := union_ok ia ib he
  rw [sa', sb'] at c1
  obtain ⟨l, h2, i2, c2, r2⟩ := archFilter_ok (req := [cs b!"x86_64"]) i1 (rest_make _ u r1) (lg := [])
    (lk := []) (le := []) (by rw [c1]; rfl) (by rw [c1]; rfl) (by rw [c1]; rfl)
  obtain ⟨ra, h3, i3, c3, r3⟩ := archFilter_ok (req := [cs b!"x86_64"]) ia he
    (lg := [leftGroup [cs b!"x86_64"] (archGrp lt [cs b!"x86_64"] [pkg b!"a" b!"1"])])
    (lk := []) (le := []) (by rw [sa']; rfl) (by rw [sa']; rfl) (by rw [sa']; rfl)
  obtain ⟨rb, h4, i4, c4, r4⟩ := archFilter_ok (req := [cs b!"x86_64"]) ib he' (lg := [])
    (lk := []) (le := []) (by rw [sb']; rfl) (by rw [sb']; rfl) (by rw [sb']; rfl)
  obtain ⟨r, h5, i5, c5, r5⟩ := union_ok i3 i4 (rest_make _ ra r3)
  refine ⟨a, b, u, l, ra, rb, r, _, _, _, ha, hb, h1, h2, h3, h4, h5, shows_content i2,
    shows_content i5, ?_, ?_⟩
  · rw [c2]
  · rw [c5, c3, c4]; rfl

/-- Two documents that share a group and meet the conditions of `C170_partial`; the filter drops a
package of it. -/
example : ∃ (a b : Doc) (ca cb : DocContent), DocBuilt lt a ∧ DocBuilt lt b ∧
    a.encoding = some (cs b!"UTF-8") ∧ b.encoding = some (cs b!"UTF-8") ∧ Shows lt a ca ∧
    Shows lt b cb ∧ DistinctIds ca ∧ DistinctIds cb ∧ FullLists ca ∧ FullLists cb ∧ Agree ca cb ∧
    ca.groups.map (fun g => idOf g.props) = cb.groups.map (fun g => idOf g.props) ∧
    ca.groups.length = 1 := by
  obtain ⟨a, ha, he, sa⟩ := made (lt := lt)
    [.addGroup (idGrp lt b!"g" [archPkg b!"n" b!"x86_64", archPkg b!"p" b!"ppc"])]
    (by simp [DocCall.Good, idGrp_built])
  obtain ⟨b, hb, he', sb⟩ := made (lt := lt)
    [.addGroup (idGrp lt b!"g" [archPkg b!"n" b!"x86_64", archPkg b!"q" b!"arm"])]
    (by simp [DocCall.Good, idGrp_built])
  refine ⟨a, b, _, _, ha, hb, he, he', sa, sb, ⟨?_, List.nodup_nil, List.nodup_nil⟩,
    ⟨?_, List.nodup_nil, List.nodup_nil⟩, ⟨?_, ?_, ?_⟩, ⟨?_, ?_, ?_⟩, ⟨?_, ?_, ?_⟩, rfl, rfl⟩
  · exact List.nodup_cons.2 ⟨by simp, List.nodup_nil⟩
  · exact List.nodup_cons.2 ⟨by simp, List.nodup_nil⟩
  · intro g hg
    simp only [List.foldl, DocCall.effect, noContent, List.nil_append, List.mem_singleton] at hg
    subst hg; exact ⟨_, rfl⟩
  · exact fun g hg => absurd hg List.not_mem_nil
  · exact fun g hg => absurd hg List.not_mem_nil
  · intro g hg
    simp only [List.foldl, DocCall.effect, noContent, List.nil_append, List.mem_singleton] at hg
    subst hg; exact ⟨_, rfl⟩
  · exact fun g hg => absurd hg List.not_mem_nil
  · exact fun g hg => absurd hg List.not_mem_nil
  · intro x hx y hy _
    simp only [List.foldl, DocCall.effect, noContent, List.nil_append, List.mem_singleton] at hx hy
    subst hx; subst hy
    refine ⟨rfl, ?_⟩
    show OneArches _ _ ([archPkg b!"n" b!"x86_64", archPkg b!"p" b!"ppc"] ++
      [archPkg b!"n" b!"x86_64", archPkg b!"q" b!"arm"])
    unfold OneArches; decide
  · exact fun g hg => absurd hg List.not_mem_nil
  · exact fun g hg => absurd hg List.not_mem_nil

end Comps.Props

#print axioms Comps.Props.C170_partial
#print axioms Comps.Props.C170_false
