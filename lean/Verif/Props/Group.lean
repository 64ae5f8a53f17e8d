import Verif.Lemmas.Built
import Verif.Spec.Equiv

/-!
# Properties of groups, categories and environments (C20, C21, C22, C25, C41, C43)

`lt` is the order of `char`, left arbitrary.
-/

namespace Comps.Props
open Comps Comps.Spec Comps.Obj

variable {lt : UInt8 → UInt8 → Bool}

/-- A string object. -/
def cs (s : Bytes) : CStr := ⟨some s⟩
/-- A mandatory package of that name with a requirement. -/
def pkg (name req : Bytes) : Package :=
  { Package.create with name := some (cs name), requires := some (cs req), type := .mandatory }
/-- A group id of that name. -/
def gid (name : Bytes) (d : Bool) : GroupId := ⟨some (cs name), d, none⟩
/-- A group made by adding packages. -/
def grp (l : List Package) : Group := l.foldl Group.addPackage Group.create
/-- A category made by adding group ids. -/
def cat (l : List GroupId) : Category := l.foldl Category.addGroupId Category.create
/-- An environment made by adding group ids. -/
def env (l o : List GroupId) : Env :=
  o.foldl Env.addOptionId (l.foldl Env.addGroupId Env.create)

theorem grp_built (l : List Package) : GroupBuilt lt (grp l) := by
  have : ∀ (l : List Package) (g : Group), GroupBuilt lt g →
      GroupBuilt lt (l.foldl Group.addPackage g) := by
    intro l
    induction l with
    | nil => exact fun _ h => h
    | cons x xs ih => exact fun g h => ih _ (.add x h)
  exact this l _ .create

theorem cat_built (l : List GroupId) : CategoryBuilt lt (cat l) := by
  have : ∀ (l : List GroupId) (g : Category), CategoryBuilt lt g →
      CategoryBuilt lt (l.foldl Category.addGroupId g) := by
    intro l
    induction l with
    | nil => exact fun _ h => h
    | cons x xs ih => exact fun g h => ih _ (.add x h)
  exact this l _ .create

/-! ## Facts about the specified merge -/

theorem merge_names {α κ : Type} [DecidableEq κ] (key : α → κ) (a b : List α) :
    (merge key a b).map key = a.map key ++ (b.map key).filter fun k => k ∉ a.map key := by
  have h : ∀ (a : List α) (seen : List κ), (overlay key b seen a).map key = a.map key := by
    intro a
    induction a with
    | nil => intro seen; rfl
    | cons x xs ih =>
      intro seen
      simp only [overlay, List.map_cons, ih]
      congr 1
      split
      · rfl
      · cases hf : b.find? (fun y => decide (key y = key x)) with
        | none => rfl
        | some y => simpa using List.find?_some hf
  simp only [merge, List.map_append, h]
  congr 1
  rw [List.filter_map]
  rfl

theorem merge_entry {α κ : Type} [DecidableEq κ] (key : α → κ) (a b : List α)
    (ha : UniqueNames key a) (i : Nat) (x : α) (hx : a[i]? = some x) :
    (merge key a b)[i]? = some ((b.find? fun y => key y = key x).getD x) := by
  have hi : i < a.length := by
    rcases Nat.lt_or_ge i a.length with h | h
    · exact h
    · rw [List.getElem?_eq_none h] at hx; simp at hx
  rw [merge, List.getElem?_append_left (by rw [overlay_length]; exact hi)]
  have := overlay_get key b [] a i
  simp only [List.map_nil, List.not_mem_nil, false_or] at this
  rw [this, hx]
  simp only [Option.map_some, Option.some.injEq]
  rw [if_neg]
  intro hm
  obtain ⟨z, hz, hzk⟩ := List.mem_map.1 hm
  obtain ⟨j, hj⟩ := List.mem_iff_getElem?.1 hz
  rw [List.getElem?_take] at hj
  split at hj
  · rename_i hji
    have h1 : (a.map key)[j]? = some (key x) := by rw [List.getElem?_map, hj, ← hzk]; rfl
    have h2 : (a.map key)[i]? = some (key x) := by rw [List.getElem?_map, hx]; rfl
    have := (List.getElem?_inj (by simpa using (by omega : j < a.length)) ha).1 (h1.trans h2.symm)
    omega
  · simp at hj

theorem merge_unique {α κ : Type} [DecidableEq κ] (key : α → κ) (a b : List α)
    (ha : UniqueNames key a) (hb : UniqueNames key b) : UniqueNames key (merge key a b) := by
  unfold UniqueNames
  rw [merge_names, List.nodup_append]
  refine ⟨ha, hb.filter _, ?_⟩
  intro k hk k' hk' e
  subst e
  have := (List.mem_filter.1 hk').2
  simp at this
  obtain ⟨z, hz, e⟩ := List.mem_map.1 hk
  exact this z hz e

theorem merge_tail {α κ : Type} [DecidableEq κ] (key : α → κ) (a b : List α) :
    (merge key a b).drop a.length = b.filter fun y => key y ∉ a.map key := by
  rw [merge, List.drop_left' (overlay_length _ _ _ _)]

/-! ## C20: merging groups -/

/-- C20: the package names of the merge are those of the first group in order, followed by those of
the second group not in the first, in order; so every name of either is there.  A NULL list counts
as empty. -/
theorem C20_names (g1 g2 : Group) : ∃ l, (g1.union lt g2).getPackageList = some l ∧
    l.map Package.getName = (g1.getPackageList.getD []).map Package.getName ++
      ((g2.getPackageList.getD []).map Package.getName).filter
        (fun n => n ∉ (g1.getPackageList.getD []).map Package.getName) ∧
    l.drop (g1.getPackageList.getD []).length = (g2.getPackageList.getD []).filter
        (fun p => p.getName ∉ (g1.getPackageList.getD []).map Package.getName) := by
  refine ⟨_, rfl, ?_⟩
  rw [unionList_eq Package.cmpSet_iff Package.copy_eq]
  exact ⟨(merge_names Package.name _ _).trans (congrArg _ (List.filter_congr fun _ _ =>
    decide_eq_decide.2 Iff.rfl)), (merge_tail Package.name _ _).trans (List.filter_congr fun _ _ =>
    decide_eq_decide.2 Iff.rfl)⟩

/-- C20 fails when the first group has two packages of one name: only the first of them is replaced
by the second group's entry, so the old entry stays although the second group has that name. -/
theorem C20_false : ∃ g1 g2 : Group, GroupBuilt lt g1 ∧ GroupBuilt lt g2 ∧
    ∃ p ∈ (g1.union lt g2).getPackageList.getD [],
      p.getName ∈ (g2.getPackageList.getD []).map Package.getName ∧
      p ∉ g2.getPackageList.getD [] :=
  ⟨grp [pkg b!"n" b!"1", pkg b!"n" b!"2"], grp [pkg b!"n" b!"3"], grp_built _, grp_built _,
    pkg b!"n" b!"2", by
      show _ ∈ unionList Package.cmpSet Package.copy _ _
      decide, by decide, by decide⟩

/-- C20, part that holds: if no two packages of the first group have one name, then at each position
of the first group the merge has the second group's (first) package of that name if there is one,
and the first group's package otherwise.  Missing: first groups with repeated names (`C20_false`). -/
theorem C20_entries_partial (g1 g2 : Group) (l1 : List Package)
    (h1 : g1.getPackageList = some l1) (hu : UniqueNames Package.getName l1) (i : Nat) (p : Package)
    (hp : l1[i]? = some p) :
    ((g1.union lt g2).getPackageList.getD [])[i]? =
      some (((g2.getPackageList.getD []).find? fun q => q.getName = p.getName).getD p) := by
  have h1' : g1.packages = some l1 := h1
  show (unionList Package.cmpSet Package.copy g1.packages g2.packages)[i]? = _
  rw [unionList_eq Package.cmpSet_iff Package.copy_eq, h1']
  exact merge_entry _ _ _ hu i p hp

example : ((grp [pkg b!"a" b!"1", pkg b!"n" b!"2"]).union (· < ·)
      (grp [pkg b!"n" b!"3", pkg b!"z" b!"4"])).getPackageList =
    some [pkg b!"a" b!"1", pkg b!"n" b!"3", pkg b!"z" b!"4"] := by decide
example : UniqueNames Package.getName [pkg b!"a" b!"1", pkg b!"n" b!"2"] := by
  unfold UniqueNames; decide

/-- C20: each property, translated name and translated description of the merge is the second
group's if it has one, and the first group's otherwise. -/
theorem C20_properties {g1 g2 : Group} (h1 : GroupBuilt lt g1) (h2 : GroupBuilt lt g2) (k : Bytes) :
    (g1.union lt g2).props.get k = (g2.props.get k).or (g1.props.get k) ∧
    (g1.union lt g2).nameByLang.get k = (g2.nameByLang.get k).or (g1.nameByLang.get k) ∧
    (g1.union lt g2).descByLang.get k = (g2.descByLang.get k).or (g1.descByLang.get k) := by
  have i1 := groupBuilt_inv h1
  have i2 := groupBuilt_inv h2
  exact ⟨union_get i1.props.reachable i2.props.reachable k, union_get i1.name.reach i2.name.reach k,
    union_get i1.desc.reach i2.desc.reach k⟩

/-- A group with id "g" and name "old" or the like. -/
def propGrp (lt : UInt8 → UInt8 → Bool) (calls : List PropCall) : Group :=
  { Group.create with props := calls.foldl (fun t c => c.run lt t) RTree.create }

theorem propGrp_built (calls : List PropCall) : GroupBuilt lt (propGrp lt calls) := by
  have : ∀ (calls : List PropCall) (g : Group), GroupBuilt lt g → GroupBuilt lt
      { g with props := calls.foldl (fun t c => c.run lt t) g.props } := by
    intro calls
    induction calls with
    | nil => exact fun _ h => h
    | cons x xs ih => exact fun g h => ih _ (.prop x h)
  exact this calls _ .create

example :
    let g1 := propGrp (· < ·) [.str .id b!"g", .str .name b!"old", .num .dflt 1 false]
    let g2 := propGrp (· < ·) [.str .id b!"g", .str .name b!"new"]
    getStrProp (g1.union (· < ·) g2).props .name = some (.str (cs b!"new")) ∧
    getNumProp (g1.union (· < ·) g2).props .dflt = some (.num 1) := by decide

/-! ## C21: intersecting groups -/

/-- C21: when both package lists exist, the intersection succeeds and its packages are, in order,
exactly those packages of the second group whose names occur in the first. -/
theorem C21_packages_partial (g1 g2 : Group) (l1 l2 : List Package)
    (h1 : g1.getPackageList = some l1) (h2 : g2.getPackageList = some l2) :
    ∃ r l, g1.intersect lt g2 = .ok r ∧ r.getPackageList = some l ∧ l.Sublist l2 ∧
      (∀ p, p ∈ l ↔ p ∈ l2 ∧ ∃ q ∈ l1, q.getName = p.getName) ∧
      (∀ n, n ∈ l.map Package.getName ↔
        n ∈ l1.map Package.getName ∧ n ∈ l2.map Package.getName) := by
  have h1' : g1.packages = some l1 := h1
  have h2' : g2.packages = some l2 := h2
  have key : ∀ p, p ∈ common Package.name l1 l2 ↔ p ∈ l2 ∧ ∃ q ∈ l1, q.name = p.name := by
    intro p; simp [common]
  refine ⟨⟨intersectProps lt g1.props g2.props, RTree.create, RTree.create, _⟩,
    common Package.name l1 l2, ?_, rfl, List.filter_sublist, key, ?_⟩
  · simp only [Group.intersect, h1', h2', bind, Except.bind,
      intersectList_eq Package.cmpSet_iff Package.copy_eq]
    rfl
  · intro n
    simp only [List.mem_map]
    constructor
    · rintro ⟨p, hp, rfl⟩
      obtain ⟨h3, q, hq, h4⟩ := (key p).1 hp
      exact ⟨⟨q, hq, h4⟩, p, h3, rfl⟩
    · rintro ⟨⟨q, hq, h4⟩, p, hp, rfl⟩
      exact ⟨p, (key p).2 ⟨hp, q, hq, h4⟩, rfl⟩

example : ((grp [pkg b!"a" b!"1", pkg b!"n" b!"2"]).intersect (· < ·)
      (grp [pkg b!"n" b!"3", pkg b!"z" b!"4"])).toOption.bind Group.getPackageList =
    some [pkg b!"n" b!"3"] := by decide

/-- C21 fails for a group whose package list was set to NULL: the function reads through the NULL
pointer. -/
theorem C21_false : ∃ g1 g2 : Group, GroupBuilt lt g1 ∧ GroupBuilt lt g2 ∧
    g1.intersect lt g2 = .error .nullDeref :=
  ⟨Group.create.setPackageList none, grp [pkg b!"n" b!"3"], .setPackages none .create,
    grp_built _, rfl⟩

/-- C21: a property has a value in the intersection exactly if both groups have that value. -/
theorem C21_properties {g1 g2 r : Group} (h1 : GroupBuilt lt g1) (h2 : GroupBuilt lt g2)
    (hr : g1.intersect lt g2 = .ok r) (k : Bytes) (v : PVal) :
    r.props.get k = some v ↔ g1.props.get k = some v ∧ g2.props.get k = some v := by
  simp only [Group.intersect, bind, Except.bind] at hr
  split at hr
  · simp at hr
  · simp [pure, Except.pure] at hr; subst hr
    exact intersectProps_get (groupBuilt_inv h1).props.reachable
      (groupBuilt_inv h2).props.reachable k v

example :
    let g1 := propGrp (· < ·) [.str .id b!"g", .str .name b!"old", .num .dflt 1 false]
    let g2 := propGrp (· < ·) [.str .id b!"g", .str .name b!"new", .num .dflt 1 false]
    (g1.intersect (· < ·) g2).toOption.map (fun r =>
      (getStrProp r.props .id, getStrProp r.props .name, getNumProp r.props .dflt)) =
      some (some (.str (cs b!"g")), none, some (.num 1)) := by decide

/-- C21 fails for translations: the intersection has none, even those on which both agree. -/
theorem C21_translations_false {g1 g2 r : Group} (hr : g1.intersect lt g2 = .ok r) (k : Bytes) :
    r.nameByLang.get k = none ∧ r.descByLang.get k = none := by
  simp only [Group.intersect, bind, Except.bind] at hr
  split at hr
  · simp at hr
  · simp [pure, Except.pure] at hr; subst hr
    have : (RTree.create : RTree PVal).get k = none := by
      rw [RTree.get_eq RTree.wf_empty]
      simp [RTree.create, HSList.empty, RTree.listLk]
    exact ⟨this, this⟩

/-! ## C22: categories and environments -/

/-- C22: names of the union of two id lists: those of the first in order, then the new ones of the
second in order. -/
theorem C22_union_names (c1 c2 : Category) : ∃ l, (c1.union lt c2).getGroupIds = some l ∧
    l.map GroupId.getName = (c1.getGroupIds.getD []).map GroupId.getName ++
      ((c2.getGroupIds.getD []).map GroupId.getName).filter
        (fun n => n ∉ (c1.getGroupIds.getD []).map GroupId.getName) := by
  refine ⟨_, rfl, ?_⟩
  rw [unionList_eq GroupId.cmpSet_iff GroupId.copy_eq]
  exact (merge_names GroupId.name _ _).trans (congrArg _ (List.filter_congr fun _ _ =>
      decide_eq_decide.2 Iff.rfl))

/-- C22: the same for both lists of an environment. -/
theorem C22_union_names_env (e1 e2 : Env) : ∃ l o, (e1.union lt e2).getGroupList = some l ∧
    (e1.union lt e2).getOptionList = some o ∧
    l.map GroupId.getName = (e1.getGroupList.getD []).map GroupId.getName ++
      ((e2.getGroupList.getD []).map GroupId.getName).filter
        (fun n => n ∉ (e1.getGroupList.getD []).map GroupId.getName) ∧
    o.map GroupId.getName = (e1.getOptionList.getD []).map GroupId.getName ++
      ((e2.getOptionList.getD []).map GroupId.getName).filter
        (fun n => n ∉ (e1.getOptionList.getD []).map GroupId.getName) := by
  refine ⟨_, _, rfl, rfl, ?_, ?_⟩ <;>
  · rw [unionList_eq GroupId.cmpSet_iff GroupId.copy_eq]
    exact (merge_names GroupId.name _ _).trans (congrArg _ (List.filter_congr fun _ _ =>
      decide_eq_decide.2 Iff.rfl))

/-- C22 fails when an operand holds an id twice: so does the union. -/
theorem C22_false : (∃ c1 c2 : Category, CategoryBuilt lt c1 ∧ CategoryBuilt lt c2 ∧
      ¬ UniqueNames GroupId.getName ((c1.union lt c2).getGroupIds.getD [])) ∧
    (∃ c1 c2 r : Category, CategoryBuilt lt c1 ∧ CategoryBuilt lt c2 ∧ c1.intersect lt c2 = .ok r ∧
      ¬ UniqueNames GroupId.getName (r.getGroupIds.getD [])) := by
  refine ⟨⟨cat [], cat [gid b!"n" true, gid b!"n" false], cat_built _, cat_built _, ?_⟩,
    ⟨cat [gid b!"n" true], cat [gid b!"n" true, gid b!"n" false], _, cat_built _, cat_built _, rfl,
      ?_⟩⟩
  · show ¬ ((unionList GroupId.cmpSet GroupId.copy _ _).map GroupId.getName).Nodup
    decide
  · unfold UniqueNames
    simp only [Category.getGroupIds]
    decide

theorem merge_entry' (a b : List GroupId) (ha : UniqueNames GroupId.name a) (i : Nat) (x : GroupId)
    (hx : a[i]? = some x) :
    (merge GroupId.name a b)[i]? = some ((b.find? fun y => y.getName = x.getName).getD x) :=
  merge_entry GroupId.name a b ha i x hx

/-- C22, part that holds: if neither category holds an id twice, neither does the union; ids of the
first category keep their positions, the second category's entry winning.  Missing: operands with
repeated ids (`C22_false`). -/
theorem C22_union_partial (c1 c2 : Category)
    (h1 : UniqueNames GroupId.getName (c1.getGroupIds.getD []))
    (h2 : UniqueNames GroupId.getName (c2.getGroupIds.getD [])) :
    UniqueNames GroupId.getName ((c1.union lt c2).getGroupIds.getD []) ∧
    (∀ g ∈ c2.getGroupIds.getD [], g ∈ (c1.union lt c2).getGroupIds.getD []) ∧
    ∀ (i : Nat) (g : GroupId), (c1.getGroupIds.getD [])[i]? = some g →
      ((c1.union lt c2).getGroupIds.getD [])[i]? =
        some (((c2.getGroupIds.getD []).find? fun q => q.getName = g.getName).getD g) := by
  have e : (c1.union lt c2).getGroupIds.getD [] =
      merge GroupId.name (c1.getGroupIds.getD []) (c2.getGroupIds.getD []) := by
    show unionList GroupId.cmpSet GroupId.copy c1.groupIds c2.groupIds = _
    rw [unionList_eq GroupId.cmpSet_iff GroupId.copy_eq]; rfl
  rw [e]
  exact ⟨merge_unique GroupId.name _ _ h1 h2, merge_second GroupId.name _ _ h1 h2, fun i g hg => merge_entry' _ _ h1 i g hg⟩

/-- C22, part that holds for environments, both lists.  Missing: operands with repeated ids. -/
theorem C22_union_env_partial (e1 e2 : Env)
    (h1 : UniqueNames GroupId.getName (e1.getGroupList.getD []))
    (h2 : UniqueNames GroupId.getName (e2.getGroupList.getD []))
    (h3 : UniqueNames GroupId.getName (e1.getOptionList.getD []))
    (h4 : UniqueNames GroupId.getName (e2.getOptionList.getD [])) :
    (UniqueNames GroupId.getName ((e1.union lt e2).getGroupList.getD []) ∧
    (∀ g ∈ e2.getGroupList.getD [], g ∈ (e1.union lt e2).getGroupList.getD []) ∧
    ∀ (i : Nat) (g : GroupId), (e1.getGroupList.getD [])[i]? = some g →
      ((e1.union lt e2).getGroupList.getD [])[i]? =
        some (((e2.getGroupList.getD []).find? fun q => q.getName = g.getName).getD g)) ∧
    (UniqueNames GroupId.getName ((e1.union lt e2).getOptionList.getD []) ∧
    (∀ g ∈ e2.getOptionList.getD [], g ∈ (e1.union lt e2).getOptionList.getD []) ∧
    ∀ (i : Nat) (g : GroupId), (e1.getOptionList.getD [])[i]? = some g →
      ((e1.union lt e2).getOptionList.getD [])[i]? =
        some (((e2.getOptionList.getD []).find? fun q => q.getName = g.getName).getD g)) := by
  have e : (e1.union lt e2).getGroupList.getD [] =
      merge GroupId.name (e1.getGroupList.getD []) (e2.getGroupList.getD []) := by
    show unionList GroupId.cmpSet GroupId.copy e1.groupList e2.groupList = _
    rw [unionList_eq GroupId.cmpSet_iff GroupId.copy_eq]; rfl
  have e' : (e1.union lt e2).getOptionList.getD [] =
      merge GroupId.name (e1.getOptionList.getD []) (e2.getOptionList.getD []) := by
    show unionList GroupId.cmpSet GroupId.copy e1.optionList e2.optionList = _
    rw [unionList_eq GroupId.cmpSet_iff GroupId.copy_eq]; rfl
  rw [e, e']
  exact ⟨⟨merge_unique GroupId.name _ _ h1 h2, merge_second GroupId.name _ _ h1 h2,
      fun i g hg => merge_entry' _ _ h1 i g hg⟩,
    merge_unique GroupId.name _ _ h3 h4, merge_second GroupId.name _ _ h3 h4, fun i g hg => merge_entry' _ _ h3 i g hg⟩

example : ((cat [gid b!"a" true, gid b!"n" false]).union (· < ·)
      (cat [gid b!"n" true, gid b!"z" false])).getGroupIds =
    some [gid b!"a" true, gid b!"n" true, gid b!"z" false] := by decide
example : UniqueNames GroupId.getName ((cat [gid b!"a" true, gid b!"n" false]).getGroupIds.getD [])
    := by unfold UniqueNames; decide

/-- C22: when both id lists exist, the intersection of categories holds, in order, exactly the
entries of the second whose ids occur in the first. -/
theorem C22_intersect_partial (c1 c2 : Category) (l1 l2 : List GroupId)
    (h1 : c1.getGroupIds = some l1) (h2 : c2.getGroupIds = some l2) :
    ∃ r l, c1.intersect lt c2 = .ok r ∧ r.getGroupIds = some l ∧ l.Sublist l2 ∧
      (∀ p, p ∈ l ↔ p ∈ l2 ∧ ∃ q ∈ l1, q.getName = p.getName) ∧
      (UniqueNames GroupId.getName l2 → UniqueNames GroupId.getName l) := by
  have h1' : c1.groupIds = some l1 := h1
  have h2' : c2.groupIds = some l2 := h2
  refine ⟨⟨intersectProps lt c1.props c2.props, RTree.create, RTree.create, _⟩,
    common GroupId.name l1 l2, ?_, rfl, List.filter_sublist, ?_, ?_⟩
  · simp only [Category.intersect, h1', h2', bind, Except.bind,
      intersectList_eq GroupId.cmpSet_iff GroupId.copy_eq]
    rfl
  · intro p; simp [common, GroupId.getName]
  · intro hu
    exact List.Nodup.sublist (List.Sublist.map _ List.filter_sublist) hu

/-- C22: when all four lists exist, the intersection of environments holds each common id once, in
both lists; its entries come from the second environment. -/
theorem C22_intersect_env_partial (e1 e2 : Env) (l1 l2 o1 o2 : List GroupId)
    (h1 : e1.getGroupList = some l1) (h2 : e2.getGroupList = some l2)
    (h3 : e1.getOptionList = some o1) (h4 : e2.getOptionList = some o2) :
    ∃ r l o, e1.intersect lt e2 = .ok r ∧ r.getGroupList = some l ∧ r.getOptionList = some o ∧
      UniqueNames GroupId.getName l ∧ UniqueNames GroupId.getName o ∧
      (∀ g ∈ l, g ∈ l2) ∧ (∀ g ∈ o, g ∈ o2) ∧
      (∀ n, n ∈ l.map GroupId.getName ↔
        n ∈ l1.map GroupId.getName ∧ n ∈ l2.map GroupId.getName) ∧
      (∀ n, n ∈ o.map GroupId.getName ↔
        n ∈ o1.map GroupId.getName ∧ n ∈ o2.map GroupId.getName) := by
  have h1' : e1.groupList = some l1 := h1
  have h2' : e2.groupList = some l2 := h2
  have h3' : e1.optionList = some o1 := h3
  have h4' : e2.optionList = some o2 := h4
  obtain ⟨u1, u2, u3⟩ := unique_common l1 l2
  obtain ⟨v1, v2, v3⟩ := unique_common o1 o2
  refine ⟨⟨intersectProps lt e1.props e2.props, RTree.create, RTree.create, _, _⟩,
    CSet.unique GroupId.cmpSet (common GroupId.name l1 l2),
    CSet.unique GroupId.cmpSet (common GroupId.name o1 o2), ?_, rfl, rfl, u1, v1, u2, v2, u3, v3⟩
  simp only [Env.intersect, h1', h2', h3', h4', bind, Except.bind,
    intersectListSet_eq GroupId.cmpSet_iff GroupId.copy_eq]
  rfl

example : ((env [gid b!"n" false, gid b!"a" true] []).intersect (· < ·)
      (env [gid b!"n" true, gid b!"z" true, gid b!"n" false] [gid b!"n" true])).toOption.map
      (fun r => (r.getGroupList, r.getOptionList)) = some (some [gid b!"n" true], some []) := by
  decide

/-- C22 fails for lists set to NULL: the functions read through the NULL pointer. -/
theorem C22_null_false : (∃ c1 c2 : Category, CategoryBuilt lt c1 ∧ CategoryBuilt lt c2 ∧
      c1.intersect lt c2 = .error .nullDeref) ∧
    (∃ e1 e2 : Env, EnvBuilt lt e1 ∧ EnvBuilt lt e2 ∧ e1.intersect lt e2 = .error .nullDeref) :=
  ⟨⟨Category.create.setGroupIds none, Category.create, .setIds none .create, .create, rfl⟩,
    ⟨Env.create, Env.create.setOptionList none, .create, .setOptions none .create, rfl⟩⟩

/-- C22: properties and translations merge as those of groups do. -/
theorem C22_properties {c1 c2 : Category} (h1 : CategoryBuilt lt c1) (h2 : CategoryBuilt lt c2)
    {e1 e2 : Env} (h3 : EnvBuilt lt e1) (h4 : EnvBuilt lt e2) (k : Bytes) :
    ((c1.union lt c2).props.get k = (c2.props.get k).or (c1.props.get k) ∧
    (c1.union lt c2).nameByLang.get k = (c2.nameByLang.get k).or (c1.nameByLang.get k) ∧
    (c1.union lt c2).descByLang.get k = (c2.descByLang.get k).or (c1.descByLang.get k)) ∧
    ((e1.union lt e2).props.get k = (e2.props.get k).or (e1.props.get k) ∧
    (e1.union lt e2).nameByLang.get k = (e2.nameByLang.get k).or (e1.nameByLang.get k) ∧
    (e1.union lt e2).descByLang.get k = (e2.descByLang.get k).or (e1.descByLang.get k)) := by
  have i1 := categoryBuilt_inv h1
  have i2 := categoryBuilt_inv h2
  have i3 := envBuilt_inv h3
  have i4 := envBuilt_inv h4
  exact ⟨⟨union_get i1.props.reachable i2.props.reachable k, union_get i1.name.reach i2.name.reach k,
    union_get i1.desc.reach i2.desc.reach k⟩,
    union_get i3.props.reachable i4.props.reachable k, union_get i3.name.reach i4.name.reach k,
    union_get i3.desc.reach i4.desc.reach k⟩

/-- C22: the properties of an intersection are those on which both agree. -/
theorem C22_intersect_properties {c1 c2 r : Category} (h1 : CategoryBuilt lt c1)
    (h2 : CategoryBuilt lt c2) (hr : c1.intersect lt c2 = .ok r)
    {e1 e2 s : Env} (h3 : EnvBuilt lt e1) (h4 : EnvBuilt lt e2) (hs : e1.intersect lt e2 = .ok s)
    (k : Bytes) (v : PVal) :
    (r.props.get k = some v ↔ c1.props.get k = some v ∧ c2.props.get k = some v) ∧
    (s.props.get k = some v ↔ e1.props.get k = some v ∧ e2.props.get k = some v) := by
  constructor
  · simp only [Category.intersect, bind, Except.bind] at hr
    split at hr
    · simp at hr
    · simp [pure, Except.pure] at hr; subst hr
      exact intersectProps_get (categoryBuilt_inv h1).props.reachable
        (categoryBuilt_inv h2).props.reachable k v
  · simp only [Env.intersect, bind, Except.bind] at hs
    split at hs
    · simp at hs
    · split at hs
      · simp at hs
      · simp [pure, Except.pure] at hs; subst hs
        exact intersectProps_get (envBuilt_inv h3).props.reachable
          (envBuilt_inv h4).props.reachable k v

/-! ## C25: architecture filtering of groups, categories and environments -/

/-- The rule of C25: the entry names no architecture, or one of those requested. -/
def Wanted (arches : List CStr) (entry : Option (List CStr)) : Prop :=
  entry.getD [] = [] ∨ ∃ a ∈ entry.getD [], a ∈ arches

instance (arches : List CStr) (e : Option (List CStr)) : Decidable (Wanted arches e) := by
  unfold Wanted; infer_instance

/-- C25 fails for an entry with an empty list of architectures (as opposed to none): it names no
architecture but is dropped. -/
theorem C25_false : ∃ (g r : Group) (arches : List CStr) (p : Package), GroupBuilt lt g ∧
    g.archFilter arches = .ok r ∧ p ∈ g.getPackageList.getD [] ∧ Wanted arches p.getArches ∧
    p ∉ r.getPackageList.getD [] := by
  refine ⟨grp [(pkg b!"n" b!"1").setArches (some [])], _, [cs b!"x86_64"],
    (pkg b!"n" b!"1").setArches (some []), grp_built _, rfl, ?_, ?_, ?_⟩ <;> decide

/-- C25, part that holds for groups with a package list: exactly the wanted packages are kept, in
order, and properties and translations are unchanged.  Missing: packages with an empty
architecture list (`C25_false`), groups whose list is NULL (`C25_null_false`). -/
theorem C25_group_partial {g : Group} (hb : GroupBuilt lt g) (l : List Package) (arches : List CStr)
    (hg : g.getPackageList = some l) (hne : ∀ p ∈ l, p.getArches ≠ some []) :
    ∃ r, g.archFilter arches = .ok r ∧
      r.getPackageList = some (l.filter fun p => Wanted arches p.getArches) ∧
      ∀ k, r.props.get k = g.props.get k ∧ r.nameByLang.get k = g.nameByLang.get k ∧
        r.descByLang.get k = g.descByLang.get k := by
  have hg' : g.packages = some l := hg
  have i := groupBuilt_inv hb
  refine ⟨_, by simp only [Group.archFilter, hg']; rfl, ?_, fun k => ⟨copy_same i.props.reachable k,
    copy_same i.name.reach k, copy_same i.desc.reach k⟩⟩
  simp only [Group.getPackageList, filter_copy Package.copy_eq, Option.some.injEq]
  exact List.filter_congr fun p hp => archKeep_eq arches _ (hne p hp)

example : ((grp [pkg b!"a" b!"1", (pkg b!"b" b!"1").setArches (some [cs b!"i386", cs b!"arm"]),
      (pkg b!"c" b!"1").setArches (some [cs b!"x86_64"])]).archFilter
      [cs b!"ppc", cs b!"arm"]).toOption.bind Group.getPackageList =
    some [pkg b!"a" b!"1", (pkg b!"b" b!"1").setArches (some [cs b!"i386", cs b!"arm"])] := by decide

/-- C25, the same for categories. -/
theorem C25_category_partial {g : Category} (hb : CategoryBuilt lt g) (l : List GroupId)
    (arches : List CStr) (hg : g.getGroupIds = some l) (hne : ∀ p ∈ l, p.getArches ≠ some []) :
    ∃ r, g.archFilter arches = .ok r ∧
      r.getGroupIds = some (l.filter fun p => Wanted arches p.getArches) ∧
      ∀ k, r.props.get k = g.props.get k ∧ r.nameByLang.get k = g.nameByLang.get k ∧
        r.descByLang.get k = g.descByLang.get k := by
  have hg' : g.groupIds = some l := hg
  have i := categoryBuilt_inv hb
  refine ⟨_, by simp only [Category.archFilter, hg']; rfl, ?_, fun k => ⟨copy_same i.props.reachable k,
    copy_same i.name.reach k, copy_same i.desc.reach k⟩⟩
  simp only [Category.getGroupIds, filter_copy GroupId.copy_eq, Option.some.injEq]
  exact List.filter_congr fun p hp => archKeep_eq arches _ (hne p hp)

/-- C25, the same for environments. -/
theorem C25_env_partial {g : Env} (hb : EnvBuilt lt g) (l o : List GroupId)
    (arches : List CStr) (hg : g.getGroupList = some l) (ho : g.getOptionList = some o)
    (hne : ∀ p ∈ l, p.getArches ≠ some []) (hno : ∀ p ∈ o, p.getArches ≠ some []) :
    ∃ r, g.archFilter arches = .ok r ∧
      r.getGroupList = some (l.filter fun p => Wanted arches p.getArches) ∧
      r.getOptionList = some (o.filter fun p => Wanted arches p.getArches) ∧
      ∀ k, r.props.get k = g.props.get k ∧ r.nameByLang.get k = g.nameByLang.get k ∧
        r.descByLang.get k = g.descByLang.get k := by
  have hg' : g.groupList = some l := hg
  have ho' : g.optionList = some o := ho
  have i := envBuilt_inv hb
  refine ⟨_, by simp only [Env.archFilter, hg', ho']; rfl, ?_, ?_, fun k => ⟨copy_same i.props.reachable k,
    copy_same i.name.reach k, copy_same i.desc.reach k⟩⟩
  · simp only [Env.getGroupList, filter_copy GroupId.copy_eq, Option.some.injEq]
    exact List.filter_congr fun p hp => archKeep_eq arches _ (hne p hp)
  · simp only [Env.getOptionList, filter_copy GroupId.copy_eq, Option.some.injEq]
    exact List.filter_congr fun p hp => archKeep_eq arches _ (hno p hp)

/-- C25 fails for lists set to NULL: the functions read through the NULL pointer. -/
theorem C25_null_false (arches : List CStr) :
    (Group.create.setPackageList none).archFilter arches = .error .nullDeref ∧
    (Category.create.setGroupIds none).archFilter arches = .error .nullDeref ∧
    (Env.create.setGroupList none).archFilter arches = .error .nullDeref ∧
    (Env.create.setOptionList none).archFilter arches = .error .nullDeref := ⟨rfl, rfl, rfl, rfl⟩

/-- C25: filtering twice keeps the same entries as filtering once (no hypothesis on the entries). -/
theorem C25_idempotent (g g' : Group) (c c' : Category) (e e' : Env) (arches : List CStr)
    (hg : g.archFilter arches = .ok g') (hc : c.archFilter arches = .ok c')
    (he : e.archFilter arches = .ok e') :
    (∃ r, g'.archFilter arches = .ok r ∧ r.getPackageList = g'.getPackageList) ∧
    (∃ r, c'.archFilter arches = .ok r ∧ r.getGroupIds = c'.getGroupIds) ∧
    (∃ r, e'.archFilter arches = .ok r ∧ r.getGroupList = e'.getGroupList ∧
      r.getOptionList = e'.getOptionList) := by
  refine ⟨?_, ?_, ?_⟩
  · simp only [Group.archFilter] at hg
    split at hg
    · simp at hg
    · simp at hg; subst hg
      exact ⟨_, rfl, by simp [Group.getPackageList, filter_copy Package.copy_eq, List.filter_filter]⟩
  · simp only [Category.archFilter] at hc
    split at hc
    · simp at hc
    · simp at hc; subst hc
      exact ⟨_, rfl, by simp [Category.getGroupIds, filter_copy GroupId.copy_eq, List.filter_filter]⟩
  · simp only [Env.archFilter] at he
    split at he
    · simp at he
    · split at he
      · simp at he
      · simp at he; subst he
        exact ⟨_, rfl, by simp [Env.getGroupList, filter_copy GroupId.copy_eq, List.filter_filter],
          by simp [Env.getOptionList, filter_copy GroupId.copy_eq, List.filter_filter]⟩

/-! ## C41: comparison and copies -/

/-- C41: comparison of packages and of group ids is an equivalence, copies are equal. -/
theorem C41_packages : IsEquiv Package.cmp ∧ (∀ p : Package, p.cmp p.copy = true) ∧
    IsEquiv GroupId.cmp ∧ (∀ g : GroupId, g.cmp g.copy = true) := by
  refine ⟨⟨?_, ?_, ?_⟩, ?_, ⟨?_, ?_, ?_⟩, ?_⟩
  · intro x; rw [Package.cmp_iff]; exact ⟨rfl, rfl, rfl⟩
  · intro x y; simp only [Package.cmp_iff]; rintro ⟨h1, h2, h3⟩; exact ⟨h1.symm, h2.symm, h3.symm⟩
  · intro x y z; simp only [Package.cmp_iff]; rintro ⟨h1, h2, h3⟩ ⟨h4, h5, h6⟩
    exact ⟨h1.trans h4, h2.trans h5, h3.trans h6⟩
  · intro p; rw [Package.cmp_iff, Package.copy_eq]; exact ⟨rfl, rfl, rfl⟩
  · intro x; rw [GroupId.cmp_iff]; exact ⟨rfl, rfl⟩
  · intro x y; simp only [GroupId.cmp_iff]; rintro ⟨h1, h2⟩; exact ⟨h1.symm, h2.symm⟩
  · intro x y z; simp only [GroupId.cmp_iff]; rintro ⟨h1, h2⟩ ⟨h4, h5⟩
    exact ⟨h1.trans h4, h2.trans h5⟩
  · intro p; rw [GroupId.cmp_iff, GroupId.copy_eq]; exact ⟨rfl, rfl⟩

/-- C41: which packages compare equal: same name, requirement and type (architectures and
`basearchonly` are not looked at). -/
theorem C41_package_meaning (p q : Package) : p.cmp q = true ↔
    p.getName = q.getName ∧ p.getRequires = q.getRequires ∧ p.getType = q.getType :=
  Package.cmp_iff p q

/-- C41: which group ids compare equal. -/
theorem C41_groupid_meaning (p q : GroupId) : p.cmp q = true ↔
    p.getName = q.getName ∧ p.getDefault = q.getDefault := by
  rw [GroupId.cmp_iff]
  cases hp : p.dflt <;> cases hq : q.dflt <;> simp [GroupId.getName, GroupId.getDefault, hp, hq]

example : (pkg b!"a" b!"1").cmp (pkg b!"a" b!"2") = false := by decide

/-- Two dictionaries have the same lookups. -/
def SameDict (t t' : RTree PVal) : Prop := ∀ k, t.get k = t'.get k

/-- Two (possibly NULL) lists have equal entries, in order. -/
def SameList {α : Type} (f : α → α → Bool) : Option (List α) → Option (List α) → Prop
  | none, none => True
  | some a, some b => a.length = b.length ∧
      ∀ (i : Nat) (x y : α), a[i]? = some x → b[i]? = some y → f x y = true
  | _, _ => False

theorem objCmp_list {α : Type} (f : α → α → Bool) (a b : Option (List α)) :
    objCmp (listCmp f) a b = true ↔ SameList f a b := by
  cases a <;> cases b <;> simp [objCmp, SameList, listCmp_iff_forall2]

/-- C41: two groups compare equal exactly if properties, translations and packages are equal. -/
theorem C41_group_meaning {a b : Group} (ha : GroupBuilt lt a) (hb : GroupBuilt lt b) :
    a.cmp b = true ↔ SameDict a.props b.props ∧ SameDict a.nameByLang b.nameByLang ∧
      SameDict a.descByLang b.descByLang ∧
      SameList Package.cmp a.getPackageList b.getPackageList := by
  have i := groupBuilt_inv ha
  have j := groupBuilt_inv hb
  unfold SameDict
  rw [← dict_cmp_iff i.props.reachable j.props.reachable, ← dict_cmp_iff i.name.reach j.name.reach,
    ← dict_cmp_iff i.desc.reach j.desc.reach, ← objCmp_list]
  unfold Group.cmp Group.getPackageList
  cases RTree.cmp PVal.cmp a.props b.props <;>
  cases RTree.cmp PVal.cmp a.nameByLang b.nameByLang <;>
  cases RTree.cmp PVal.cmp a.descByLang b.descByLang <;>
  cases objCmp (listCmp Package.cmp) a.packages b.packages <;> simp

/-- C41: the same for categories. -/
theorem C41_category_meaning {a b : Category} (ha : CategoryBuilt lt a) (hb : CategoryBuilt lt b) :
    a.cmp b = true ↔ SameDict a.props b.props ∧ SameDict a.nameByLang b.nameByLang ∧
      SameDict a.descByLang b.descByLang ∧ SameList GroupId.cmp a.getGroupIds b.getGroupIds := by
  have i := categoryBuilt_inv ha
  have j := categoryBuilt_inv hb
  unfold SameDict
  rw [← dict_cmp_iff i.props.reachable j.props.reachable, ← dict_cmp_iff i.name.reach j.name.reach,
    ← dict_cmp_iff i.desc.reach j.desc.reach, ← objCmp_list]
  unfold Category.cmp Category.getGroupIds
  cases RTree.cmp PVal.cmp a.props b.props <;>
  cases RTree.cmp PVal.cmp a.nameByLang b.nameByLang <;>
  cases RTree.cmp PVal.cmp a.descByLang b.descByLang <;>
  cases objCmp (listCmp GroupId.cmp) a.groupIds b.groupIds <;> simp

/-- C41: the same for environments. -/
theorem C41_env_meaning {a b : Env} (ha : EnvBuilt lt a) (hb : EnvBuilt lt b) :
    a.cmp b = true ↔ SameDict a.props b.props ∧ SameDict a.nameByLang b.nameByLang ∧
      SameDict a.descByLang b.descByLang ∧ SameList GroupId.cmp a.getGroupList b.getGroupList ∧
      SameList GroupId.cmp a.getOptionList b.getOptionList := by
  have i := envBuilt_inv ha
  have j := envBuilt_inv hb
  unfold SameDict
  rw [← dict_cmp_iff i.props.reachable j.props.reachable, ← dict_cmp_iff i.name.reach j.name.reach,
    ← dict_cmp_iff i.desc.reach j.desc.reach, ← objCmp_list, ← objCmp_list]
  unfold Env.cmp Env.getGroupList Env.getOptionList
  cases RTree.cmp PVal.cmp a.props b.props <;>
  cases RTree.cmp PVal.cmp a.nameByLang b.nameByLang <;>
  cases RTree.cmp PVal.cmp a.descByLang b.descByLang <;>
  cases objCmp (listCmp GroupId.cmp) a.groupList b.groupList <;>
  cases objCmp (listCmp GroupId.cmp) a.optionList b.optionList <;> simp

theorem SameList.refl {α : Type} {f : α → α → Bool} (hf : IsEquiv f) (a : Option (List α)) :
    SameList f a a := by
  cases a with
  | none => trivial
  | some l => exact ⟨rfl, fun i x y h1 h2 => by rw [h1] at h2; cases h2; exact hf.refl _⟩

theorem SameList.symm {α : Type} {f : α → α → Bool} (hf : IsEquiv f) {a b : Option (List α)}
    (h : SameList f a b) : SameList f b a := by
  cases a <;> cases b <;> simp only [SameList] at *
  exact ⟨h.1.symm, fun i x y h1 h2 => hf.symm _ _ (h.2 i y x h2 h1)⟩

theorem SameList.trans {α : Type} {f : α → α → Bool} (hf : IsEquiv f) {a b c : Option (List α)}
    (h : SameList f a b) (h' : SameList f b c) : SameList f a c := by
  cases a <;> cases b <;> cases c <;> simp only [SameList] at *
  rename_i la lb lc
  refine ⟨h.1.trans h'.1, fun i x y h1 h2 => ?_⟩
  have hi : i < lb.length := by
    have : i < la.length := by
      rcases Nat.lt_or_ge i la.length with q | q
      · exact q
      · rw [List.getElem?_eq_none q] at h1; simp at h1
    omega
  have h3 : lb[i]? = some lb[i] := List.getElem?_eq_getElem hi
  exact hf.trans _ _ _ (h.2 i x _ h1 h3) (h'.2 i _ y h3 h2)

theorem sameList_copy {α : Type} {f : α → α → Bool} (hf : IsEquiv f) (copy : α → α)
    (hc : ∀ x, copy x = x) (a : Option (List α)) : SameList f a (objCopy (listCopy copy) a) := by
  have : copy = id := funext hc
  subst this
  cases a with
  | none => trivial
  | some l => simpa [objCopy, listCopy] using SameList.refl hf (some l)

/-- C41: comparison of groups is reflexive, symmetric and transitive, and a copy is equal. -/
theorem C41_group {a b c : Group} (ha : GroupBuilt lt a) (hb : GroupBuilt lt b)
    (hc : GroupBuilt lt c) :
    a.cmp a = true ∧ (a.cmp b = true → b.cmp a = true) ∧
    (a.cmp b = true → b.cmp c = true → a.cmp c = true) ∧ a.cmp a.copy = true := by
  have e := C41_packages.1
  have i := groupBuilt_inv ha
  refine ⟨?_, ?_, ?_, ?_⟩
  · rw [C41_group_meaning ha ha]; exact ⟨fun _ => rfl, fun _ => rfl, fun _ => rfl, .refl e _⟩
  · rw [C41_group_meaning ha hb, C41_group_meaning hb ha]
    rintro ⟨h1, h2, h3, h4⟩
    exact ⟨fun k => (h1 k).symm, fun k => (h2 k).symm, fun k => (h3 k).symm, h4.symm e⟩
  · rw [C41_group_meaning ha hb, C41_group_meaning hb hc, C41_group_meaning ha hc]
    rintro ⟨h1, h2, h3, h4⟩ ⟨k1, k2, k3, k4⟩
    exact ⟨fun k => (h1 k).trans (k1 k), fun k => (h2 k).trans (k2 k), fun k => (h3 k).trans (k3 k),
      h4.trans e k4⟩
  · rw [C41_group_meaning ha (.copy ha)]
    exact ⟨fun k => (copy_same i.props.reachable k).symm, fun k => (copy_same i.name.reach k).symm,
      fun k => (copy_same i.desc.reach k).symm, sameList_copy e _ Package.copy_eq _⟩

/-- C41: the same for categories. -/
theorem C41_category {a b c : Category} (ha : CategoryBuilt lt a) (hb : CategoryBuilt lt b)
    (hc : CategoryBuilt lt c) :
    a.cmp a = true ∧ (a.cmp b = true → b.cmp a = true) ∧
    (a.cmp b = true → b.cmp c = true → a.cmp c = true) ∧ a.cmp a.copy = true := by
  have e := C41_packages.2.2.1
  have i := categoryBuilt_inv ha
  refine ⟨?_, ?_, ?_, ?_⟩
  · rw [C41_category_meaning ha ha]; exact ⟨fun _ => rfl, fun _ => rfl, fun _ => rfl, .refl e _⟩
  · rw [C41_category_meaning ha hb, C41_category_meaning hb ha]
    rintro ⟨h1, h2, h3, h4⟩
    exact ⟨fun k => (h1 k).symm, fun k => (h2 k).symm, fun k => (h3 k).symm, h4.symm e⟩
  · rw [C41_category_meaning ha hb, C41_category_meaning hb hc, C41_category_meaning ha hc]
    rintro ⟨h1, h2, h3, h4⟩ ⟨k1, k2, k3, k4⟩
    exact ⟨fun k => (h1 k).trans (k1 k), fun k => (h2 k).trans (k2 k), fun k => (h3 k).trans (k3 k),
      h4.trans e k4⟩
  · rw [C41_category_meaning ha (.copy ha)]
    exact ⟨fun k => (copy_same i.props.reachable k).symm, fun k => (copy_same i.name.reach k).symm,
      fun k => (copy_same i.desc.reach k).symm, sameList_copy e _ GroupId.copy_eq _⟩

/-- C41: the same for environments. -/
theorem C41_env {a b c : Env} (ha : EnvBuilt lt a) (hb : EnvBuilt lt b) (hc : EnvBuilt lt c) :
    a.cmp a = true ∧ (a.cmp b = true → b.cmp a = true) ∧
    (a.cmp b = true → b.cmp c = true → a.cmp c = true) ∧ a.cmp a.copy = true := by
  have e := C41_packages.2.2.1
  have i := envBuilt_inv ha
  refine ⟨?_, ?_, ?_, ?_⟩
  · rw [C41_env_meaning ha ha]
    exact ⟨fun _ => rfl, fun _ => rfl, fun _ => rfl, .refl e _, .refl e _⟩
  · rw [C41_env_meaning ha hb, C41_env_meaning hb ha]
    rintro ⟨h1, h2, h3, h4, h5⟩
    exact ⟨fun k => (h1 k).symm, fun k => (h2 k).symm, fun k => (h3 k).symm, h4.symm e, h5.symm e⟩
  · rw [C41_env_meaning ha hb, C41_env_meaning hb hc, C41_env_meaning ha hc]
    rintro ⟨h1, h2, h3, h4, h5⟩ ⟨k1, k2, k3, k4, k5⟩
    exact ⟨fun k => (h1 k).trans (k1 k), fun k => (h2 k).trans (k2 k), fun k => (h3 k).trans (k3 k),
      h4.trans e k4, h5.trans e k5⟩
  · rw [C41_env_meaning ha (.copy ha)]
    exact ⟨fun k => (copy_same i.props.reachable k).symm, fun k => (copy_same i.name.reach k).symm,
      fun k => (copy_same i.desc.reach k).symm, sameList_copy e _ GroupId.copy_eq _,
      sameList_copy e _ GroupId.copy_eq _⟩

example : GroupBuilt (· < ·) (propGrp (· < ·) [.str .id b!"g"]) ∧
    (propGrp (· < ·) [.str .id b!"g"]).cmp (propGrp (· < ·) [.str .id b!"h"]) = false ∧
    (propGrp (· < ·) [.str .id b!"g"]).cmp
      (propGrp (· < ·) [.str .id b!"h", .str .id b!"g"]) = true :=
  ⟨propGrp_built _, by decide, by decide⟩

/-- C41: comparing two objects built through the API never reads a value through the wrong type:
wherever both have a value under a name, the comparison function succeeds. -/
theorem C41_no_type_confusion {a b : Group} (ha : GroupBuilt lt a) (hb : GroupBuilt lt b)
    {c d : Category} (hc : CategoryBuilt lt c) (hd : CategoryBuilt lt d)
    {e f : Env} (he : EnvBuilt lt e) (hf : EnvBuilt lt f) (k : Bytes) (v w : PVal) :
    (a.props.get k = some v → b.props.get k = some w → v.cmpR w = .ok (decide (v = w))) ∧
    (a.nameByLang.get k = some v → b.nameByLang.get k = some w →
      v.cmpR w = .ok (decide (v = w))) ∧
    (a.descByLang.get k = some v → b.descByLang.get k = some w →
      v.cmpR w = .ok (decide (v = w))) ∧
    (c.props.get k = some v → d.props.get k = some w → v.cmpR w = .ok (decide (v = w))) ∧
    (c.nameByLang.get k = some v → d.nameByLang.get k = some w →
      v.cmpR w = .ok (decide (v = w))) ∧
    (c.descByLang.get k = some v → d.descByLang.get k = some w →
      v.cmpR w = .ok (decide (v = w))) ∧
    (e.props.get k = some v → f.props.get k = some w → v.cmpR w = .ok (decide (v = w))) ∧
    (e.nameByLang.get k = some v → f.nameByLang.get k = some w →
      v.cmpR w = .ok (decide (v = w))) ∧
    (e.descByLang.get k = some v → f.descByLang.get k = some w →
      v.cmpR w = .ok (decide (v = w))) := by
  have ia := groupBuilt_inv ha
  have ib := groupBuilt_inv hb
  have ic := categoryBuilt_inv hc
  have id' := categoryBuilt_inv hd
  have ie := envBuilt_inv he
  have if' := envBuilt_inv hf
  exact ⟨fun h1 h2 => cmpR_ok (prop_kinds ia.props ib.props h1 h2),
    fun h1 h2 => cmpR_ok (lang_kinds ia.name ib.name h1 h2),
    fun h1 h2 => cmpR_ok (lang_kinds ia.desc ib.desc h1 h2),
    fun h1 h2 => cmpR_ok (prop_kinds ic.props id'.props h1 h2),
    fun h1 h2 => cmpR_ok (lang_kinds ic.name id'.name h1 h2),
    fun h1 h2 => cmpR_ok (lang_kinds ic.desc id'.desc h1 h2),
    fun h1 h2 => cmpR_ok (prop_kinds ie.props if'.props h1 h2),
    fun h1 h2 => cmpR_ok (lang_kinds ie.name if'.name h1 h2),
    fun h1 h2 => cmpR_ok (lang_kinds ie.desc if'.desc h1 h2)⟩

/-! ## C43: property setters and getters -/

/-- C43: after any sequence of setter calls on a new object, every getter returns the value of the
last call for its property. -/
theorem C43_record (calls : List PropCall) :
    let props := calls.foldl (fun t c => c.run lt t) RTree.create
    (∀ p, getStrProp props p = (lastStr p calls none).map fun s => .str (cs s)) ∧
    (∀ p, getNumProp props p = (lastNum p calls none).map .num) ∧
    getArchesProp props = .ok (lastArches calls none) := by
  have main : ∀ (calls : List PropCall) (t : RTree PVal), PropInv lt t →
      ∀ (S : StrProp → Option Bytes) (N : NumProp → Option Int) (A : Option (List CStr)),
      (∀ p, t.get p.key = (S p).map fun s => .str (cs s)) →
      (∀ p, t.get p.key = (N p).map .num) → t.get b!"arches" = A.map .list →
      (∀ p, (calls.foldl (fun t c => c.run lt t) t).get p.key =
        (lastStr p calls (S p)).map fun s => .str (cs s)) ∧
      (∀ p, (calls.foldl (fun t c => c.run lt t) t).get p.key = (lastNum p calls (N p)).map .num) ∧
      (calls.foldl (fun t c => c.run lt t) t).get b!"arches" = (lastArches calls A).map .list := by
    intro calls
    induction calls with
    | nil => exact fun t _ S N A h1 h2 h3 => ⟨h1, h2, h3⟩
    | cons c cs' ih =>
      intro t ht S N A h1 h2 h3
      simp only [List.foldl_cons]
      have g := ht.run_get c
      cases c with
      | str q s =>
        cases s with
        | none => exact ih t ht S N A h1 h2 h3
        | some s =>
          simp only [PropCall.write] at g
          have := ih _ (ht.run (.str q (some s))) (fun p => if q = p then some s else S p) N A
            (fun p => by rw [g, h1]; cases p <;> cases q <;> simp [StrProp.key, cs] <;> rfl)
            (fun p => by rw [g, h2]; cases p <;> cases q <;> simp [StrProp.key, NumProp.key])
            (by rw [g, h3]; cases q <;> simp [StrProp.key])
          exact this
      | num q n u =>
        simp only [PropCall.write] at g
        have := ih _ (ht.run (.num q n u)) S
          (fun p => if q = p then (if u then none else some n) else N p) A
          (fun p => by rw [g, h1]; cases p <;> cases q <;> simp [StrProp.key, NumProp.key])
          (fun p => by rw [g, h2]; cases p <;> cases q <;> cases u <;> simp [NumProp.key])
          (by rw [g, h3]; cases q <;> simp [NumProp.key])
        exact this
      | arches l =>
        simp only [PropCall.write] at g
        have := ih _ (ht.run (.arches l)) S N l
          (fun p => by rw [g, h1]; cases p <;> simp [StrProp.key])
          (fun p => by rw [g, h2]; cases p <;> simp [NumProp.key])
          (by rw [g]; simp)
        exact this
  have hc : ∀ k, (RTree.create : RTree PVal).get k = none := by
    intro k
    rw [RTree.get_eq RTree.wf_empty]
    simp [RTree.create, HSList.empty, RTree.listLk]
  have := main calls RTree.create .create (fun _ => none) (fun _ => none) none
    (fun p => hc _) (fun p => hc _) (hc _)
  refine ⟨this.1, this.2.1, ?_⟩
  simp only [getArchesProp, this.2.2]
  cases lastArches calls none <;> rfl

example : lastNum .dflt [.num .dflt 1 false, .str .id b!"x", .num .displayOrder 7 false,
    .num .dflt 0 true] none = none := by decide
example : lastStr .desc [.str .desc b!"x", .num .dflt 1 false, .str .id b!"y", .str .desc none] none
    = some b!"x" := by decide

/-- C43: on every reachable object a setter call changes the property it names to the value given
and no other property. -/
theorem C43_frame {g : Group} (hg : GroupBuilt lt g) {c : Category} (hc : CategoryBuilt lt c)
    {e : Env} (he : EnvBuilt lt e) (t : RTree PVal) (ht : t = g.props ∨ t = c.props ∨ t = e.props) :
    (∀ p s, getStrProp (PropCall.run lt t (.str p (some s))) p = some (.str (cs s))) ∧
    (∀ p n, getNumProp (PropCall.run lt t (.num p n false)) p = some (.num n)) ∧
    (∀ p n, getNumProp (PropCall.run lt t (.num p n true)) p = none) ∧
    (∀ l, getArchesProp (PropCall.run lt t (.arches l)) = .ok l) ∧
    (∀ p s q, q ≠ p → getStrProp (PropCall.run lt t (.str p s)) q = getStrProp t q) ∧
    (∀ p s q, getNumProp (PropCall.run lt t (.str p s)) q = getNumProp t q) ∧
    (∀ p s, getArchesProp (PropCall.run lt t (.str p s)) = getArchesProp t) ∧
    (∀ p n u q, q ≠ p → getNumProp (PropCall.run lt t (.num p n u)) q = getNumProp t q) ∧
    (∀ p n u q, getStrProp (PropCall.run lt t (.num p n u)) q = getStrProp t q) ∧
    (∀ p n u, getArchesProp (PropCall.run lt t (.num p n u)) = getArchesProp t) ∧
    (∀ l q, getStrProp (PropCall.run lt t (.arches l)) q = getStrProp t q) ∧
    (∀ l q, getNumProp (PropCall.run lt t (.arches l)) q = getNumProp t q) := by
  have hi : PropInv lt t := by
    rcases ht with rfl | rfl | rfl
    · exact (groupBuilt_inv hg).props
    · exact (categoryBuilt_inv hc).props
    · exact (envBuilt_inv he).props
  simp only [getStrProp, getNumProp, getArchesProp, hi.run_get, PropCall.write]
  refine ⟨fun p s => by simp [cs], fun p n => by simp, fun p n => by simp,
    fun l => by cases l <;> simp, fun p s q h => ?_, fun p s q => ?_, fun p s => ?_,
    fun p n u q h => ?_, fun p n u q => ?_, fun p n u => ?_, fun l q => ?_, fun l q => ?_⟩
  · cases s <;> cases p <;> cases q <;> simp [StrProp.key] at h ⊢
  · cases s <;> cases p <;> cases q <;> simp [StrProp.key, NumProp.key]
  · cases s <;> cases p <;> simp [StrProp.key]
  · cases p <;> cases q <;> simp [NumProp.key] at h ⊢
  · cases p <;> cases q <;> simp [NumProp.key, StrProp.key]
  · cases p <;> simp [NumProp.key]
  · cases q <;> simp [StrProp.key]
  · cases q <;> simp [NumProp.key]

/-- C43: a string setter given NULL changes nothing; string properties cannot be unset. -/
theorem C43_null_string (t : RTree PVal) (p : StrProp) : PropCall.run lt t (.str p none) = t := rfl

end Comps.Props

section
open Comps.Props
#print axioms C20_names
#print axioms C20_false
#print axioms C20_entries_partial
#print axioms C20_properties
#print axioms C21_packages_partial
#print axioms C21_false
#print axioms C21_properties
#print axioms C21_translations_false
#print axioms C22_union_names
#print axioms C22_union_names_env
#print axioms C22_false
#print axioms C22_union_partial
#print axioms C22_union_env_partial
#print axioms C22_intersect_partial
#print axioms C22_intersect_env_partial
#print axioms C22_null_false
#print axioms C22_properties
#print axioms C22_intersect_properties
#print axioms C25_false
#print axioms C25_group_partial
#print axioms C25_category_partial
#print axioms C25_env_partial
#print axioms C25_null_false
#print axioms C25_idempotent
#print axioms C41_packages
#print axioms C41_package_meaning
#print axioms C41_groupid_meaning
#print axioms C41_group_meaning
#print axioms C41_category_meaning
#print axioms C41_env_meaning
#print axioms C41_group
#print axioms C41_category
#print axioms C41_env
#print axioms C41_no_type_confusion
#print axioms C43_record
#print axioms C43_frame
#print axioms C43_null_string
end
