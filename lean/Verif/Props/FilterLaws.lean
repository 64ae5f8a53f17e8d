import Verif.Props.Laws

/-!
# Filtering by architecture before or after merging (C168)

`SameGroup` and the like say that every getter gives the same; `cmp` is the comparison of the
library.
-/

namespace Comps.Props
open Comps Comps.Spec Comps.Obj

variable {lt : UInt8 → UInt8 → Bool}

/-- Entries of one name have the same architectures. -/
def OneArches {α : Type} (name : α → Option CStr) (arches : α → Option (List CStr)) (l : List α) :
    Prop := ∀ x ∈ l, ∀ y ∈ l, name x = name y → arches x = arches y

theorem filter_packages (g : Group) {l : List Package} (hl : g.getPackageList = some l)
    (req : List CStr) : g.archFilter req = .ok ⟨g.props.copy PVal.copy, g.nameByLang.copy PVal.copy,
      g.descByLang.copy PVal.copy, some (l.filter fun p => archKeep req p.arches)⟩ := by
  have h : g.packages = some l := hl
  simp only [Group.archFilter, h, filter_copy Package.copy_eq]

theorem filter_ids (g : Category) {l : List GroupId} (hl : g.getGroupIds = some l)
    (req : List CStr) : g.archFilter req = .ok ⟨g.props.copy PVal.copy, g.nameByLang.copy PVal.copy,
      g.descByLang.copy PVal.copy, some (l.filter fun p => archKeep req p.arches)⟩ := by
  have h : g.groupIds = some l := hl
  simp only [Category.archFilter, h, filter_copy GroupId.copy_eq]

theorem filter_env (g : Env) {l o : List GroupId} (hl : g.getGroupList = some l)
    (ho : g.getOptionList = some o) (req : List CStr) : g.archFilter req =
      .ok ⟨g.props.copy PVal.copy, g.nameByLang.copy PVal.copy, g.descByLang.copy PVal.copy,
        some (l.filter fun p => archKeep req p.arches),
        some (o.filter fun p => archKeep req p.arches)⟩ := by
  have h : g.groupList = some l := hl
  have h' : g.optionList = some o := ho
  simp only [Env.archFilter, h, h', filter_copy GroupId.copy_eq]

/-- Copying a merge or merging copies. -/
theorem dict_copy_union {t t' : RTree PVal} (h : Reachable lt t) (h' : Reachable lt t') :
    SameDict ((t.union lt PVal.copy t').copy PVal.copy)
      ((t.copy PVal.copy).union lt PVal.copy (t'.copy PVal.copy)) := fun k => by
  rw [copy_same (h.union h' _) k, union_get h h', union_get (h.copy _) (h'.copy _), copy_same h k,
    copy_same h' k]

/-- **C168.**  Two groups (categories, environments) whose lists are not NULL, and in which packages
(group ids) of one name have the same architectures: merging and then filtering works, so does
filtering both and then merging, and the results compare equal and are the same for every getter.
Missing: entries of one name with different architectures (`C168_false`), NULL lists (C25). -/
theorem C168_partial (req : List CStr) :
    (∀ {a b : Group} {la lb}, GroupBuilt lt a → GroupBuilt lt b → a.getPackageList = some la →
      b.getPackageList = some lb → OneArches Package.getName Package.getArches (la ++ lb) →
      ∃ l fa fb, (a.union lt b).archFilter req = .ok l ∧ a.archFilter req = .ok fa ∧
        b.archFilter req = .ok fb ∧ SameGroup l (fa.union lt fb) ∧ l.cmp (fa.union lt fb) = true) ∧
    (∀ {a b : Category} {la lb}, CategoryBuilt lt a → CategoryBuilt lt b → a.getGroupIds = some la →
      b.getGroupIds = some lb → OneArches GroupId.getName GroupId.getArches (la ++ lb) →
      ∃ l fa fb, (a.union lt b).archFilter req = .ok l ∧ a.archFilter req = .ok fa ∧
        b.archFilter req = .ok fb ∧ SameCategory l (fa.union lt fb) ∧
        l.cmp (fa.union lt fb) = true) ∧
    (∀ {a b : Env} {la lb oa ob}, EnvBuilt lt a → EnvBuilt lt b → a.getGroupList = some la →
      b.getGroupList = some lb → a.getOptionList = some oa → b.getOptionList = some ob →
      OneArches GroupId.getName GroupId.getArches (la ++ lb) →
      OneArches GroupId.getName GroupId.getArches (oa ++ ob) →
      ∃ l fa fb, (a.union lt b).archFilter req = .ok l ∧ a.archFilter req = .ok fa ∧
        b.archFilter req = .ok fb ∧ SameEnv l (fa.union lt fb) ∧ l.cmp (fa.union lt fb) = true) := by
  refine ⟨fun {a b la lb} ha hb h1 h2 ho => ?_, fun {a b la lb} ha hb h1 h2 ho => ?_,
    fun {a b la lb oa ob} ha hb h1 h2 k1 k2 ho ho' => ?_⟩
  · have i := groupBuilt_inv ha; have j := groupBuilt_inv hb
    have hu := packages_merge (lt := lt) a b
    rw [h1, h2, Option.getD_some, Option.getD_some] at hu
    have e1 := filter_packages _ hu req
    have e2 := filter_packages _ h1 req
    have e3 := filter_packages _ h2 req
    refine ⟨_, _, _, e1, e2, e3, group_both (.archFilter req (.union ha hb) e1)
      (.union (.archFilter req ha e2) (.archFilter req hb e3))
      ⟨dict_copy_union i.props.reachable j.props.reachable, dict_copy_union i.name.reach j.name.reach,
        dict_copy_union i.desc.reach j.desc.reach, ?_⟩⟩
    rw [packages_merge]
    exact congrArg some (merge_filter Package.name _ la lb fun x hx y hy h => by
      have : x.arches = y.arches := ho x hx y hy h
      rw [this])
  · have i := categoryBuilt_inv ha; have j := categoryBuilt_inv hb
    have hu := ids_merge (lt := lt) a b
    rw [h1, h2, Option.getD_some, Option.getD_some] at hu
    have e1 := filter_ids _ hu req
    have e2 := filter_ids _ h1 req
    have e3 := filter_ids _ h2 req
    refine ⟨_, _, _, e1, e2, e3, category_both (.archFilter req (.union ha hb) e1)
      (.union (.archFilter req ha e2) (.archFilter req hb e3))
      ⟨dict_copy_union i.props.reachable j.props.reachable, dict_copy_union i.name.reach j.name.reach,
        dict_copy_union i.desc.reach j.desc.reach, ?_⟩⟩
    rw [ids_merge]
    exact congrArg some (merge_filter GroupId.name _ la lb fun x hx y hy h => by
      have : x.arches = y.arches := ho x hx y hy h
      rw [this])
  · have i := envBuilt_inv ha; have j := envBuilt_inv hb
    have hu := groups_merge (lt := lt) a b
    have hv := options_merge (lt := lt) a b
    rw [h1, h2, Option.getD_some, Option.getD_some] at hu
    rw [k1, k2, Option.getD_some, Option.getD_some] at hv
    have e1 := filter_env _ hu hv req
    have e2 := filter_env _ h1 k1 req
    have e3 := filter_env _ h2 k2 req
    refine ⟨_, _, _, e1, e2, e3, env_both (.archFilter req (.union ha hb) e1)
      (.union (.archFilter req ha e2) (.archFilter req hb e3))
      ⟨dict_copy_union i.props.reachable j.props.reachable, dict_copy_union i.name.reach j.name.reach,
        dict_copy_union i.desc.reach j.desc.reach, ?_, ?_⟩⟩
    · rw [groups_merge]
      exact congrArg some (merge_filter GroupId.name _ la lb fun x hx y hy h => by
        have : x.arches = y.arches := ho x hx y hy h
        rw [this])
    · rw [options_merge]
      exact congrArg some (merge_filter GroupId.name _ oa ob fun x hx y hy h => by
        have : x.arches = y.arches := ho' x hx y hy h
        rw [this])

/-- A package of one architecture. -/
def archPkg (name arch : Bytes) : Package := (pkg name b!"1").setArches (some [cs arch])

/-- C168 is false if the groups have a package of one name for different architectures: merged first,
only the second group's package is left and the filter drops it; filtered first, the first group's
package stays. -/
theorem C168_false : ∃ (a b l fa fb : Group) (req : List CStr), GroupBuilt lt a ∧ GroupBuilt lt b ∧
    (a.union lt b).archFilter req = .ok l ∧ a.archFilter req = .ok fa ∧ b.archFilter req = .ok fb ∧
    l.getPackageList = some [] ∧ (fa.union lt fb).getPackageList = some [archPkg b!"n" b!"x86_64"] := by
  have h1 : (grp [archPkg b!"n" b!"x86_64"]).getPackageList = some [archPkg b!"n" b!"x86_64"] := rfl
  have h2 : (grp [archPkg b!"n" b!"ppc"]).getPackageList = some [archPkg b!"n" b!"ppc"] := rfl
  have hu := packages_merge (lt := lt) (grp [archPkg b!"n" b!"x86_64"]) (grp [archPkg b!"n" b!"ppc"])
  rw [h1, h2] at hu
  refine ⟨grp [archPkg b!"n" b!"x86_64"], grp [archPkg b!"n" b!"ppc"], _, _, _, [cs b!"x86_64"],
    grp_built _, grp_built _, filter_packages _ hu _, filter_packages _ h1 _, filter_packages _ h2 _,
    ?_, ?_⟩
  · simp only [Group.getPackageList]
    decide
  · rw [packages_merge]
    simp only [Group.getPackageList]
    decide

/-- Two groups that share a package for one architecture, and each have one for another. -/
example : OneArches Package.getName Package.getArches
    ([archPkg b!"n" b!"x86_64", archPkg b!"p" b!"ppc"] ++
      [archPkg b!"n" b!"x86_64", archPkg b!"q" b!"arm"]) := by
  unfold OneArches; decide
example : (((grp [archPkg b!"n" b!"x86_64", archPkg b!"p" b!"ppc"]).union (· < ·)
      (grp [archPkg b!"n" b!"x86_64", archPkg b!"q" b!"arm"])).archFilter [cs b!"arm", cs b!"x86_64"]).toOption.map
        Group.getPackageList = some (some [archPkg b!"n" b!"x86_64", archPkg b!"q" b!"arm"]) := by
  decide

end Comps.Props

#print axioms Comps.Props.C168_partial
#print axioms Comps.Props.C168_false
