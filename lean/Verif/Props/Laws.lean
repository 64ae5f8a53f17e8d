import Verif.Lemmas.MergeLaws
import Verif.Props.Doc

/-!
# Laws of merging and intersecting entries (C165, C166)

`SameGroup` and the like say that every getter gives the same; `cmp` is the comparison of the
library.  `lt` is the order of `char`, left arbitrary.
-/

namespace Comps.Props
open Comps Comps.Spec Comps.Obj

variable {lt : UInt8 → UInt8 → Bool}

/-! ## Dictionaries -/

theorem dict_self {t : RTree PVal} (h : Reachable lt t) : SameDict (t.union lt PVal.copy t) t :=
  fun k => by rw [union_get h h]; cases t.get k <;> rfl

theorem dict_assoc {t1 t2 t3 : RTree PVal} (h1 : Reachable lt t1) (h2 : Reachable lt t2)
    (h3 : Reachable lt t3) : SameDict ((t1.union lt PVal.copy t2).union lt PVal.copy t3)
      (t1.union lt PVal.copy (t2.union lt PVal.copy t3)) := fun k => by
  rw [union_get (h1.union h2 _) h3, union_get h1 h2, union_get h1 (h2.union h3 _), union_get h2 h3,
    Option.or_assoc]

theorem empty_get (k : Bytes) : (RTree.create : RTree PVal).get k = none := by
  rw [RTree.get_eq RTree.wf_empty]
  simp [RTree.create, HSList.empty, RTree.listLk]

theorem dict_empty {t : RTree PVal} (h : Reachable lt t) :
    SameDict (t.union lt PVal.copy RTree.create) t ∧
    SameDict ((RTree.create : RTree PVal).union lt PVal.copy t) t :=
  ⟨fun k => by rw [union_get h .create, empty_get]; rfl,
    fun k => by rw [union_get .create h, empty_get, Option.or_none]⟩

theorem inter_self {t : RTree PVal} (h : Reachable lt t) : SameDict (intersectProps lt t t) t :=
  fun k => by
    apply Option.ext
    intro v
    rw [intersectProps_get h h, and_self]

theorem inter_reachable {t1 t2 : RTree PVal} : Reachable lt (intersectProps lt t1 t2) := by
  rw [intersectProps_eq]
  obtain ⟨S, h⟩ := RTree.reach_setAll (lt := lt) (RTree.asWrites
    (t2.pairs.filter fun e => decide (e ∈ t1.pairs))) (.create : Reach lt [] RTree.create)
  exact ⟨S, h⟩

theorem inter_assoc {t1 t2 t3 : RTree PVal} (h1 : Reachable lt t1) (h2 : Reachable lt t2)
    (h3 : Reachable lt t3) : SameDict (intersectProps lt (intersectProps lt t1 t2) t3)
      (intersectProps lt t1 (intersectProps lt t2 t3)) := fun k => by
  apply Option.ext
  intro v
  rw [intersectProps_get inter_reachable h3, intersectProps_get h1 h2,
    intersectProps_get h1 inter_reachable, intersectProps_get h2 h3, and_assoc]

/-! ## The same for all getters means equal for the library -/

theorem group_same_cmp {a b : Group} (ha : GroupBuilt lt a) (hb : GroupBuilt lt b)
    (h : SameGroup a b) : a.cmp b = true :=
  (C41_group_meaning ha hb).2 ⟨h.props, h.name, h.desc, h.packages ▸ SameList.refl C41_packages.1 _⟩

theorem category_same_cmp {a b : Category} (ha : CategoryBuilt lt a) (hb : CategoryBuilt lt b)
    (h : SameCategory a b) : a.cmp b = true :=
  (C41_category_meaning ha hb).2 ⟨h.props, h.name, h.desc, h.ids ▸ SameList.refl C41_packages.2.2.1 _⟩

theorem env_same_cmp {a b : Env} (ha : EnvBuilt lt a) (hb : EnvBuilt lt b)
    (h : SameEnv a b) : a.cmp b = true :=
  (C41_env_meaning ha hb).2 ⟨h.props, h.name, h.desc, h.groups ▸ SameList.refl C41_packages.2.2.1 _,
    h.options ▸ SameList.refl C41_packages.2.2.1 _⟩

theorem group_both {a b : Group} (ha : GroupBuilt lt a) (hb : GroupBuilt lt b)
    (h : SameGroup a b) : SameGroup a b ∧ a.cmp b = true := ⟨h, group_same_cmp ha hb h⟩
theorem category_both {a b : Category} (ha : CategoryBuilt lt a) (hb : CategoryBuilt lt b)
    (h : SameCategory a b) : SameCategory a b ∧ a.cmp b = true := ⟨h, category_same_cmp ha hb h⟩
theorem env_both {a b : Env} (ha : EnvBuilt lt a) (hb : EnvBuilt lt b)
    (h : SameEnv a b) : SameEnv a b ∧ a.cmp b = true := ⟨h, env_same_cmp ha hb h⟩

/-! ## C165: merging -/

theorem packages_merge (g h : Group) : (g.union lt h).getPackageList =
    some (merge Package.name (g.getPackageList.getD []) (h.getPackageList.getD [])) :=
  congrArg some (unionList_eq Package.cmpSet_iff Package.copy_eq _ _)
theorem ids_merge (g h : Category) : (g.union lt h).getGroupIds =
    some (merge GroupId.name (g.getGroupIds.getD []) (h.getGroupIds.getD [])) :=
  congrArg some (unionList_eq GroupId.cmpSet_iff GroupId.copy_eq _ _)
theorem groups_merge (g h : Env) : (g.union lt h).getGroupList =
    some (merge GroupId.name (g.getGroupList.getD []) (h.getGroupList.getD [])) :=
  congrArg some (unionList_eq GroupId.cmpSet_iff GroupId.copy_eq _ _)
theorem options_merge (g h : Env) : (g.union lt h).getOptionList =
    some (merge GroupId.name (g.getOptionList.getD []) (h.getOptionList.getD [])) :=
  congrArg some (unionList_eq GroupId.cmpSet_iff GroupId.copy_eq _ _)

theorem group_assoc_same {a b c : Group} (ha : GroupBuilt lt a) (hb : GroupBuilt lt b)
    (hc : GroupBuilt lt c) :
    SameGroup ((a.union lt b).union lt c) (a.union lt (b.union lt c)) := by
  have i := groupBuilt_inv ha; have j := groupBuilt_inv hb; have k := groupBuilt_inv hc
  refine ⟨dict_assoc i.props.reachable j.props.reachable k.props.reachable,
    dict_assoc i.name.reach j.name.reach k.name.reach,
    dict_assoc i.desc.reach j.desc.reach k.desc.reach, ?_⟩
  simp only [packages_merge, Option.getD_some, merge_assoc]

theorem category_assoc_same {a b c : Category} (ha : CategoryBuilt lt a) (hb : CategoryBuilt lt b)
    (hc : CategoryBuilt lt c) :
    SameCategory ((a.union lt b).union lt c) (a.union lt (b.union lt c)) := by
  have i := categoryBuilt_inv ha; have j := categoryBuilt_inv hb; have k := categoryBuilt_inv hc
  refine ⟨dict_assoc i.props.reachable j.props.reachable k.props.reachable,
    dict_assoc i.name.reach j.name.reach k.name.reach,
    dict_assoc i.desc.reach j.desc.reach k.desc.reach, ?_⟩
  simp only [ids_merge, Option.getD_some, merge_assoc]

theorem env_assoc_same {a b c : Env} (ha : EnvBuilt lt a) (hb : EnvBuilt lt b) (hc : EnvBuilt lt c) :
    SameEnv ((a.union lt b).union lt c) (a.union lt (b.union lt c)) := by
  have i := envBuilt_inv ha; have j := envBuilt_inv hb; have k := envBuilt_inv hc
  refine ⟨dict_assoc i.props.reachable j.props.reachable k.props.reachable,
    dict_assoc i.name.reach j.name.reach k.name.reach,
    dict_assoc i.desc.reach j.desc.reach k.desc.reach, ?_, ?_⟩
  · simp only [groups_merge, Option.getD_some, merge_assoc]
  · simp only [options_merge, Option.getD_some, merge_assoc]

/-- **C165.**  Merging three groups, categories or environments gives the same for every getter, and
something that compares equal, whichever two are merged first. -/
theorem C165_order :
    (∀ {a b c : Group}, GroupBuilt lt a → GroupBuilt lt b → GroupBuilt lt c →
      SameGroup ((a.union lt b).union lt c) (a.union lt (b.union lt c)) ∧
      ((a.union lt b).union lt c).cmp (a.union lt (b.union lt c)) = true) ∧
    (∀ {a b c : Category}, CategoryBuilt lt a → CategoryBuilt lt b → CategoryBuilt lt c →
      SameCategory ((a.union lt b).union lt c) (a.union lt (b.union lt c)) ∧
      ((a.union lt b).union lt c).cmp (a.union lt (b.union lt c)) = true) ∧
    (∀ {a b c : Env}, EnvBuilt lt a → EnvBuilt lt b → EnvBuilt lt c →
      SameEnv ((a.union lt b).union lt c) (a.union lt (b.union lt c)) ∧
      ((a.union lt b).union lt c).cmp (a.union lt (b.union lt c)) = true) :=
  ⟨fun ha hb hc => ⟨group_assoc_same ha hb hc,
      group_same_cmp (.union (.union ha hb) hc) (.union ha (.union hb hc)) (group_assoc_same ha hb hc)⟩,
    fun ha hb hc => ⟨category_assoc_same ha hb hc,
      category_same_cmp (.union (.union ha hb) hc) (.union ha (.union hb hc))
        (category_assoc_same ha hb hc)⟩,
    fun ha hb hc => ⟨env_assoc_same ha hb hc,
      env_same_cmp (.union (.union ha hb) hc) (.union ha (.union hb hc)) (env_assoc_same ha hb hc)⟩⟩

/-- Three groups: the last one's packages win, in either order of merging. -/
example :
    let a := grp [pkg b!"n" b!"1", pkg b!"x" b!"1", pkg b!"n" b!"2"]
    let b := grp [pkg b!"y" b!"2", pkg b!"n" b!"3"]
    let c := grp [pkg b!"y" b!"4", pkg b!"x" b!"5", pkg b!"z" b!"6"]
    ((a.union (· < ·) b).union (· < ·) c).getPackageList = some [pkg b!"n" b!"3", pkg b!"x" b!"5",
      pkg b!"n" b!"2", pkg b!"y" b!"4", pkg b!"z" b!"6"] ∧
    (a.union (· < ·) (b.union (· < ·) c)).getPackageList = some [pkg b!"n" b!"3", pkg b!"x" b!"5",
      pkg b!"n" b!"2", pkg b!"y" b!"4", pkg b!"z" b!"6"] := by decide
example (l : List Package) : GroupBuilt lt (grp l) := grp_built l

theorem group_self_same {g : Group} (hg : GroupBuilt lt g) {l : List Package}
    (hl : g.getPackageList = some l) : SameGroup (g.union lt g) g := by
  have i := groupBuilt_inv hg
  refine ⟨dict_self i.props.reachable, dict_self i.name.reach, dict_self i.desc.reach, ?_⟩
  rw [packages_merge, hl, Option.getD_some, merge_self]

theorem category_self_same {g : Category} (hg : CategoryBuilt lt g) {l : List GroupId}
    (hl : g.getGroupIds = some l) : SameCategory (g.union lt g) g := by
  have i := categoryBuilt_inv hg
  refine ⟨dict_self i.props.reachable, dict_self i.name.reach, dict_self i.desc.reach, ?_⟩
  rw [ids_merge, hl, Option.getD_some, merge_self]

theorem env_self_same {g : Env} (hg : EnvBuilt lt g) {l o : List GroupId}
    (hl : g.getGroupList = some l) (ho : g.getOptionList = some o) : SameEnv (g.union lt g) g := by
  have i := envBuilt_inv hg
  refine ⟨dict_self i.props.reachable, dict_self i.name.reach, dict_self i.desc.reach, ?_, ?_⟩
  · rw [groups_merge, hl, Option.getD_some, merge_self]
  · rw [options_merge, ho, Option.getD_some, merge_self]

/-- **C165.**  A group, category or environment whose lists are not NULL, merged with itself, is
unchanged for every getter and compares equal to what it was.  Missing: NULL lists (`C165_false`). -/
theorem C165_self_partial :
    (∀ {g : Group} {l}, GroupBuilt lt g → g.getPackageList = some l →
      SameGroup (g.union lt g) g ∧ (g.union lt g).cmp g = true) ∧
    (∀ {g : Category} {l}, CategoryBuilt lt g → g.getGroupIds = some l →
      SameCategory (g.union lt g) g ∧ (g.union lt g).cmp g = true) ∧
    (∀ {g : Env} {l o}, EnvBuilt lt g → g.getGroupList = some l → g.getOptionList = some o →
      SameEnv (g.union lt g) g ∧ (g.union lt g).cmp g = true) :=
  ⟨fun hg hl => ⟨group_self_same hg hl, group_same_cmp (.union hg hg) hg (group_self_same hg hl)⟩,
    fun hg hl => ⟨category_self_same hg hl,
      category_same_cmp (.union hg hg) hg (category_self_same hg hl)⟩,
    fun hg hl ho => ⟨env_self_same hg hl ho,
      env_same_cmp (.union hg hg) hg (env_self_same hg hl ho)⟩⟩

/-- A group that has a package name twice is not changed either. -/
example : ((grp [pkg b!"n" b!"1", pkg b!"n" b!"2"]).union (· < ·)
      (grp [pkg b!"n" b!"1", pkg b!"n" b!"2"])).getPackageList =
    some [pkg b!"n" b!"1", pkg b!"n" b!"2"] := by decide

/-- **C165.**  A new group, category or environment merged with one whose lists are not NULL, before
or after it, leaves it unchanged.  Missing: NULL lists (`C165_false`). -/
theorem C165_empty_partial :
    (∀ {g : Group} {l}, GroupBuilt lt g → g.getPackageList = some l →
      SameGroup (g.union lt .create) g ∧ SameGroup (Group.create.union lt g) g ∧
      (g.union lt .create).cmp g = true ∧ (Group.create.union lt g).cmp g = true) ∧
    (∀ {g : Category} {l}, CategoryBuilt lt g → g.getGroupIds = some l →
      SameCategory (g.union lt .create) g ∧ SameCategory (Category.create.union lt g) g ∧
      (g.union lt .create).cmp g = true ∧ (Category.create.union lt g).cmp g = true) ∧
    (∀ {g : Env} {l o}, EnvBuilt lt g → g.getGroupList = some l → g.getOptionList = some o →
      SameEnv (g.union lt .create) g ∧ SameEnv (Env.create.union lt g) g ∧
      (g.union lt .create).cmp g = true ∧ (Env.create.union lt g).cmp g = true) := by
  refine ⟨fun {g l} hg hl => ?_, fun {g l} hg hl => ?_, fun {g l o} hg hl ho => ?_⟩
  · have i := groupBuilt_inv hg
    have h1 : SameGroup (g.union lt .create) g := by
      refine ⟨(dict_empty i.props.reachable).1, (dict_empty i.name.reach).1, (dict_empty i.desc.reach).1,
        ?_⟩
      rw [packages_merge, hl]
      exact congrArg some (merge_nil _ _)
    have h2 : SameGroup (Group.create.union lt g) g := by
      refine ⟨(dict_empty i.props.reachable).2, (dict_empty i.name.reach).2, (dict_empty i.desc.reach).2,
        ?_⟩
      rw [packages_merge, hl]
      exact congrArg some (nil_merge _ _)
    exact ⟨h1, h2, group_same_cmp (.union hg .create) hg h1, group_same_cmp (.union .create hg) hg h2⟩
  · have i := categoryBuilt_inv hg
    have h1 : SameCategory (g.union lt .create) g := by
      refine ⟨(dict_empty i.props.reachable).1, (dict_empty i.name.reach).1, (dict_empty i.desc.reach).1,
        ?_⟩
      rw [ids_merge, hl]
      exact congrArg some (merge_nil _ _)
    have h2 : SameCategory (Category.create.union lt g) g := by
      refine ⟨(dict_empty i.props.reachable).2, (dict_empty i.name.reach).2, (dict_empty i.desc.reach).2,
        ?_⟩
      rw [ids_merge, hl]
      exact congrArg some (nil_merge _ _)
    exact ⟨h1, h2, category_same_cmp (.union hg .create) hg h1,
      category_same_cmp (.union .create hg) hg h2⟩
  · have i := envBuilt_inv hg
    have h1 : SameEnv (g.union lt .create) g := by
      refine ⟨(dict_empty i.props.reachable).1, (dict_empty i.name.reach).1, (dict_empty i.desc.reach).1,
        ?_, ?_⟩
      · rw [groups_merge, hl]
        exact congrArg some (merge_nil _ _)
      · rw [options_merge, ho]
        exact congrArg some (merge_nil _ _)
    have h2 : SameEnv (Env.create.union lt g) g := by
      refine ⟨(dict_empty i.props.reachable).2, (dict_empty i.name.reach).2, (dict_empty i.desc.reach).2,
        ?_, ?_⟩
      · rw [groups_merge, hl]
        exact congrArg some (nil_merge _ _)
      · rw [options_merge, ho]
        exact congrArg some (nil_merge _ _)
    exact ⟨h1, h2, env_same_cmp (.union hg .create) hg h1, env_same_cmp (.union .create hg) hg h2⟩

/-- C165 is false for a group whose package list is NULL: merged with itself it has an empty list, and
the library does not call that equal. -/
theorem C165_false : ∃ g : Group, GroupBuilt lt g ∧ (g.union lt g).cmp g = false ∧
    (g.union lt .create).cmp g = false :=
  ⟨Group.create.setPackageList none, .setPackages none .create, rfl, rfl⟩

/-! ## C166: intersecting -/

/-- No translated name or description. -/
def Untranslated (n d : RTree PVal) : Prop := ∀ k, n.get k = none ∧ d.get k = none

theorem group_inter (g h : Group) {l l' : List Package} (hl : g.getPackageList = some l)
    (hl' : h.getPackageList = some l') : g.intersect lt h =
      .ok ⟨intersectProps lt g.props h.props, RTree.create, RTree.create,
        some (common Package.name l l')⟩ := by
  have h1 : g.packages = some l := hl
  have h2 : h.packages = some l' := hl'
  simp only [Group.intersect, h1, h2, bind, Except.bind,
    intersectList_eq Package.cmpSet_iff Package.copy_eq]
  rfl

theorem category_inter (g h : Category) {l l' : List GroupId} (hl : g.getGroupIds = some l)
    (hl' : h.getGroupIds = some l') : g.intersect lt h =
      .ok ⟨intersectProps lt g.props h.props, RTree.create, RTree.create,
        some (common GroupId.name l l')⟩ := by
  have h1 : g.groupIds = some l := hl
  have h2 : h.groupIds = some l' := hl'
  simp only [Category.intersect, h1, h2, bind, Except.bind,
    intersectList_eq GroupId.cmpSet_iff GroupId.copy_eq]
  rfl

theorem env_inter (g h : Env) {l l' o o' : List GroupId} (hl : g.getGroupList = some l)
    (hl' : h.getGroupList = some l') (ho : g.getOptionList = some o)
    (ho' : h.getOptionList = some o') : g.intersect lt h =
      .ok ⟨intersectProps lt g.props h.props, RTree.create, RTree.create,
        some (CSet.unique GroupId.cmpSet (common GroupId.name l l')),
        some (CSet.unique GroupId.cmpSet (common GroupId.name o o'))⟩ := by
  have h1 : g.groupList = some l := hl
  have h2 : h.groupList = some l' := hl'
  have h3 : g.optionList = some o := ho
  have h4 : h.optionList = some o' := ho'
  simp only [Env.intersect, h1, h2, h3, h4, bind, Except.bind,
    intersectListSet_eq GroupId.cmpSet_iff GroupId.copy_eq]
  rfl

/-- **C166.**  Intersecting three groups, categories or environments whose lists are not NULL never
faults and gives the same for every getter, and something that compares equal, whichever two are
intersected first.  Missing: NULL lists (C21). -/
theorem C166_order_partial :
    (∀ {a b c : Group} {la lb lc}, GroupBuilt lt a → GroupBuilt lt b → GroupBuilt lt c →
      a.getPackageList = some la → b.getPackageList = some lb → c.getPackageList = some lc →
      ∃ ab bc l r, a.intersect lt b = .ok ab ∧ ab.intersect lt c = .ok l ∧
        b.intersect lt c = .ok bc ∧ a.intersect lt bc = .ok r ∧ SameGroup l r ∧ l.cmp r = true) ∧
    (∀ {a b c : Category} {la lb lc}, CategoryBuilt lt a → CategoryBuilt lt b → CategoryBuilt lt c →
      a.getGroupIds = some la → b.getGroupIds = some lb → c.getGroupIds = some lc →
      ∃ ab bc l r, a.intersect lt b = .ok ab ∧ ab.intersect lt c = .ok l ∧
        b.intersect lt c = .ok bc ∧ a.intersect lt bc = .ok r ∧ SameCategory l r ∧ l.cmp r = true) ∧
    (∀ {a b c : Env} {la lb lc oa ob oc}, EnvBuilt lt a → EnvBuilt lt b → EnvBuilt lt c →
      a.getGroupList = some la → b.getGroupList = some lb → c.getGroupList = some lc →
      a.getOptionList = some oa → b.getOptionList = some ob → c.getOptionList = some oc →
      ∃ ab bc l r, a.intersect lt b = .ok ab ∧ ab.intersect lt c = .ok l ∧
        b.intersect lt c = .ok bc ∧ a.intersect lt bc = .ok r ∧ SameEnv l r ∧ l.cmp r = true) := by
  refine ⟨fun {a b c la lb lc} ha hb hc h1 h2 h3 => ?_, fun {a b c la lb lc} ha hb hc h1 h2 h3 => ?_,
    fun {a b c la lb lc oa ob oc} ha hb hc h1 h2 h3 k1 k2 k3 => ?_⟩
  · have i := groupBuilt_inv ha; have j := groupBuilt_inv hb; have k := groupBuilt_inv hc
    have e1 := group_inter (lt := lt) a b h1 h2
    have e2 := group_inter (lt := lt) b c h2 h3
    have e3 := group_inter (lt := lt) ⟨intersectProps lt a.props b.props, RTree.create, RTree.create,
      some (common Package.name la lb)⟩ c rfl h3
    have e4 := group_inter (lt := lt) a ⟨intersectProps lt b.props c.props, RTree.create, RTree.create,
      some (common Package.name lb lc)⟩ h1 rfl
    have s := inter_assoc i.props.reachable j.props.reachable k.props.reachable
    refine ⟨_, _, _, _, e1, e3, e2, e4, ?_⟩
    exact group_both (.intersect (.intersect ha hb e1) hc e3)
      (.intersect ha (.intersect hb hc e2) e4)
      ⟨s, fun _ => rfl, fun _ => rfl,
      congrArg some (common_assoc Package.name la lb lc)⟩
  · have i := categoryBuilt_inv ha; have j := categoryBuilt_inv hb; have k := categoryBuilt_inv hc
    have e1 := category_inter (lt := lt) a b h1 h2
    have e2 := category_inter (lt := lt) b c h2 h3
    have e3 := category_inter (lt := lt) ⟨intersectProps lt a.props b.props, RTree.create, RTree.create,
      some (common GroupId.name la lb)⟩ c rfl h3
    have e4 := category_inter (lt := lt) a ⟨intersectProps lt b.props c.props, RTree.create, RTree.create,
      some (common GroupId.name lb lc)⟩ h1 rfl
    have s := inter_assoc i.props.reachable j.props.reachable k.props.reachable
    refine ⟨_, _, _, _, e1, e3, e2, e4, ?_⟩
    exact category_both (.intersect (.intersect ha hb e1) hc e3)
      (.intersect ha (.intersect hb hc e2) e4)
      ⟨s, fun _ => rfl, fun _ => rfl,
      congrArg some (common_assoc GroupId.name la lb lc)⟩
  · have i := envBuilt_inv ha; have j := envBuilt_inv hb; have k := envBuilt_inv hc
    have e1 := env_inter (lt := lt) a b h1 h2 k1 k2
    have e2 := env_inter (lt := lt) b c h2 h3 k2 k3
    have e3 := env_inter (lt := lt) ⟨intersectProps lt a.props b.props, RTree.create, RTree.create,
      some (CSet.unique GroupId.cmpSet (common GroupId.name la lb)),
      some (CSet.unique GroupId.cmpSet (common GroupId.name oa ob))⟩ c rfl h3 rfl k3
    have e4 := env_inter (lt := lt) a ⟨intersectProps lt b.props c.props, RTree.create, RTree.create,
      some (CSet.unique GroupId.cmpSet (common GroupId.name lb lc)),
      some (CSet.unique GroupId.cmpSet (common GroupId.name ob oc))⟩ h1 rfl k1 rfl
    have s := inter_assoc i.props.reachable j.props.reachable k.props.reachable
    refine ⟨_, _, _, _, e1, e3, e2, e4, ?_⟩
    exact env_both (.intersect (.intersect ha hb e1) hc e3)
      (.intersect ha (.intersect hb hc e2) e4)
      ⟨s, fun _ => rfl, fun _ => rfl,
      congrArg some (unique_common_assoc GroupId.cmpSet_iff la lb lc),
      congrArg some (unique_common_assoc GroupId.cmpSet_iff oa ob oc)⟩

/-- **C166.**  A group or category whose list is not NULL, or an environment whose lists are not NULL
and name no group twice, intersected with itself keeps its properties and lists; if it has no
translations the result compares equal to it.  Missing: translations (`C166_false`), environments
that name a group twice (`C166_false_env`). -/
theorem C166_self_partial :
    (∀ {g : Group} {l}, GroupBuilt lt g → g.getPackageList = some l →
      ∃ r, g.intersect lt g = .ok r ∧ SameDict r.props g.props ∧ r.getPackageList = some l ∧
        (Untranslated g.nameByLang g.descByLang → r.cmp g = true)) ∧
    (∀ {g : Category} {l}, CategoryBuilt lt g → g.getGroupIds = some l →
      ∃ r, g.intersect lt g = .ok r ∧ SameDict r.props g.props ∧ r.getGroupIds = some l ∧
        (Untranslated g.nameByLang g.descByLang → r.cmp g = true)) ∧
    (∀ {g : Env} {l o}, EnvBuilt lt g → g.getGroupList = some l → g.getOptionList = some o →
      UniqueNames GroupId.getName l → UniqueNames GroupId.getName o →
      ∃ r, g.intersect lt g = .ok r ∧ SameDict r.props g.props ∧ r.getGroupList = some l ∧
        r.getOptionList = some o ∧ (Untranslated g.nameByLang g.descByLang → r.cmp g = true)) := by
  refine ⟨fun {g l} hg hl => ?_, fun {g l} hg hl => ?_, fun {g l o} hg hl ho ul uo => ?_⟩
  · have i := groupBuilt_inv hg
    have e := group_inter (lt := lt) g g hl hl
    rw [common_self] at e
    refine ⟨_, e, inter_self i.props.reachable, rfl, fun h => ?_⟩
    exact group_same_cmp (.intersect hg hg e) hg ⟨inter_self i.props.reachable,
      fun k => (empty_get k).trans (h k).1.symm, fun k => (empty_get k).trans (h k).2.symm, hl.symm⟩
  · have i := categoryBuilt_inv hg
    have e := category_inter (lt := lt) g g hl hl
    rw [common_self] at e
    refine ⟨_, e, inter_self i.props.reachable, rfl, fun h => ?_⟩
    exact category_same_cmp (.intersect hg hg e) hg ⟨inter_self i.props.reachable,
      fun k => (empty_get k).trans (h k).1.symm, fun k => (empty_get k).trans (h k).2.symm, hl.symm⟩
  · have i := envBuilt_inv hg
    have e := env_inter (lt := lt) g g hl hl ho ho
    rw [common_self, common_self, unique_of_names GroupId.cmpSet_iff ul,
      unique_of_names GroupId.cmpSet_iff uo] at e
    refine ⟨_, e, inter_self i.props.reachable, rfl, rfl, fun h => ?_⟩
    exact env_same_cmp (.intersect hg hg e) hg ⟨inter_self i.props.reachable,
      fun k => (empty_get k).trans (h k).1.symm, fun k => (empty_get k).trans (h k).2.symm, hl.symm,
      ho.symm⟩

/-- A group with a translated name. -/
def trGrp (lt : UInt8 → UInt8 → Bool) : Group :=
  { Group.create with nameByLang := RTree.create.set lt b!"cs" (some (.str (cs b!"x"))) }

/-- C166 is false for a group with a translated name: intersected with itself it compares different,
because the translations are gone. -/
theorem C166_false : ∃ g r : Group, GroupBuilt lt g ∧ g.getPackageList = some [] ∧
    g.intersect lt g = .ok r ∧ r.cmp g = false := by
  have hg : GroupBuilt lt (trGrp lt) := .nameLang _ _ .create
  have e := group_inter (lt := lt) (trGrp lt) (trGrp lt) rfl rfl
  refine ⟨trGrp lt, _, hg, rfl, e, ?_⟩
  refine Bool.eq_false_iff.2 fun h => ?_
  have := ((C41_group_meaning (.intersect hg hg e) hg).1 h).2.1 b!"cs"
  rw [empty_get] at this
  have h2 : (trGrp lt).nameByLang.get b!"cs" = some (PVal.str (cs b!"x")) := rfl
  rw [h2] at this
  cases this

/-- C166 is false for an environment that lists a group twice: intersected with itself it lists it
once. -/
theorem C166_false_env : ∃ (g r : Env) (x : GroupId), EnvBuilt lt g ∧
    g.getGroupList = some [x, x] ∧ g.intersect lt g = .ok r ∧ r.getGroupList = some [x] ∧
    r.cmp g = false :=
  ⟨Env.create.setGroupList (some [gid b!"n" true, gid b!"n" true]), _, gid b!"n" true,
    .setGroups _ .create, rfl, rfl, by
      simp only [Env.getGroupList]
      decide, rfl⟩

/-- Groups and categories meeting the conditions, with lists that differ. -/
example : ((grp [pkg b!"a" b!"1", pkg b!"n" b!"2"]).intersect (· < ·)
      (grp [pkg b!"n" b!"3", pkg b!"z" b!"4", pkg b!"a" b!"5"])).toOption.map Group.getPackageList =
    some (some [pkg b!"n" b!"3", pkg b!"a" b!"5"]) := by decide
example : EnvBuilt lt (Env.create.setGroupList (some [gid b!"a" true, gid b!"b" false])) ∧
    UniqueNames GroupId.getName [gid b!"a" true, gid b!"b" false] :=
  ⟨.setGroups _ .create, by unfold UniqueNames; decide⟩
example : Untranslated (grp [pkg b!"a" b!"1"]).nameByLang (grp [pkg b!"a" b!"1"]).descByLang :=
  fun k => ⟨empty_get k, empty_get k⟩

end Comps.Props

#print axioms Comps.Props.C165_order
#print axioms Comps.Props.C165_self_partial
#print axioms Comps.Props.C165_empty_partial
#print axioms Comps.Props.C165_false
#print axioms Comps.Props.C166_order_partial
#print axioms Comps.Props.C166_self_partial
#print axioms Comps.Props.C166_false
#print axioms Comps.Props.C166_false_env
