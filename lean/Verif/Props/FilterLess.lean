import Verif.Props.FilterSet

/-!
# Filtering by more architectures leaves more (C181)
-/

namespace Comps
open Comps.Obj Comps.Spec

variable {α : Type}

/-- The entries of the first list are some of those of the second, in their order, each related to it. -/
def Less (R : α → α → Prop) (a b : List α) : Prop := ∃ l, List.Sublist l b ∧ Alike R a l

theorem left_less {R : α → α → Prop} {k1 k2 : α → Bool} {f1 f2 : α → α} {l : List α}
    (hk : ∀ x ∈ l, k2 x = true → k1 x = true) (hR : ∀ x ∈ l, R (f2 x) (f1 x)) :
    Less R (l.filterMap (left k2 f2)) (l.filterMap (left k1 f1)) := by
  have e : ∀ (k : α → Bool) (f : α → α), l.filterMap (left k f) = (l.filter k).map f := by
    intro k f
    clear hk hR
    induction l with
    | nil => rfl
    | cons x xs ih =>
      cases h : k x with
      | false => rw [List.filterMap_cons_none (left_none h), List.filter_cons_of_neg (by simp [h]), ih]
      | true =>
        rw [List.filterMap_cons_some (left_some h), List.filter_cons_of_pos (by simp [h]), List.map_cons, ih]
  have s : List.Sublist (l.filter k2) (l.filter k1) := by
    have : l.filter k2 = (l.filter k1).filter k2 := by
      rw [List.filter_filter]
      refine List.filter_congr fun x hx => ?_
      cases h : k2 x with
      | false => rfl
      | true => rw [hk x hx h]; rfl
    rw [this]
    exact List.filter_sublist
  rw [e, e]
  refine ⟨(l.filter k2).map f1, s.map f1, by simp, fun i x y hx hy => ?_⟩
  rw [List.getElem?_map] at hx hy
  cases e : (l.filter k2)[i]? with
  | none => rw [e] at hx; cases hx
  | some z =>
    rw [e] at hx hy
    cases hx; cases hy
    exact hR z (List.mem_filter.1 (List.mem_of_getElem? e)).1

theorem left_all (l : List α) : l.filterMap (left (fun _ => true) id) = l := by
  induction l with
  | nil => rfl
  | cons x xs ih => rw [List.filterMap_cons_some (left_some rfl), ih]; rfl

theorem members_less {r s : List CStr} (hrs : ∀ x ∈ r, x ∈ s) (f : α → Option (List CStr)) (l : List α) :
    List.Sublist (l.filter fun p => archKeep r (f p)) (l.filter fun p => archKeep s (f p)) := by
  rw [← filter_narrow hrs f l]
  exact List.filter_sublist

end Comps

namespace Comps.Props
open Comps Comps.Spec Comps.Obj

variable {lt : UInt8 → UInt8 → Bool}

/-- The same properties and translations, and some of the packages in their order. -/
structure LessGroup (a b : Group) : Prop where
  props : SameDict a.props b.props
  name : SameDict a.nameByLang b.nameByLang
  desc : SameDict a.descByLang b.descByLang
  packages : List.Sublist (a.getPackageList.getD []) (b.getPackageList.getD [])

/-- The same properties and translations, and some of the group ids in their order. -/
structure LessCategory (a b : Category) : Prop where
  props : SameDict a.props b.props
  name : SameDict a.nameByLang b.nameByLang
  desc : SameDict a.descByLang b.descByLang
  groupIds : List.Sublist (a.getGroupIds.getD []) (b.getGroupIds.getD [])

/-- The same properties and translations, and some of the group ids and options in their order. -/
structure LessEnv (a b : Env) : Prop where
  props : SameDict a.props b.props
  name : SameDict a.nameByLang b.nameByLang
  desc : SameDict a.descByLang b.descByLang
  groupList : List.Sublist (a.getGroupList.getD []) (b.getGroupList.getD [])
  optionList : List.Sublist (a.getOptionList.getD []) (b.getOptionList.getD [])

/-- Some of the entries in their order, each with some of its members. -/
structure LessEntries (a b : DocContent) : Prop where
  groups : Less LessGroup a.groups b.groups
  categories : Less LessCategory a.categories b.categories
  environments : Less LessEnv a.environments b.environments

theorem groups_less {s r : List CStr} (hrs : ∀ x ∈ r, x ∈ s) {l la lb : List Group}
    (hl : ∀ g ∈ l, GroupBuilt lt g) (h1 : filterG s l = .ok la) (h2 : filterG r l = .ok lb) :
    Less LessGroup lb la ∧ Less LessGroup la l := by
  have shape : ∀ {q : List CStr} {l' : List Group}, filterG q l = .ok l' →
      l' = l.filterMap (left (fun g => archKeep q (archesOf g.props)) (leftGroup q)) := by
    intro q l' h
    refine docFilterList_shape h (fun g hg => ⟨_, getArches_ok (groupBuilt_inv (hl g hg)).props, rfl⟩) ?_
    intro x r hr
    cases hp : x.packages with
    | none => simp only [Group.archFilter, hp] at hr; cases hr
    | some z => rw [leftGroup_eq q ⟨z, hp⟩] at hr; cases hr; rfl
  rw [shape h1, shape h2]
  refine ⟨left_less (fun _ _ h => archKeep_sub hrs h) fun g _ => ⟨fun _ => rfl, fun _ => rfl, fun _ => rfl,
    members_less hrs _ _⟩, ?_⟩
  have h := left_less (R := LessGroup) (k1 := fun _ => true) (f1 := id) (l := l)
    (k2 := fun g => archKeep s (archesOf g.props)) (f2 := leftGroup s) (fun _ _ _ => rfl) fun g hg =>
    ⟨copy_same (groupBuilt_inv (hl g hg)).props.reachable, copy_same (groupBuilt_inv (hl g hg)).name.reach,
      copy_same (groupBuilt_inv (hl g hg)).desc.reach, List.filter_sublist⟩
  rwa [left_all] at h

theorem categories_less {s r : List CStr} (hrs : ∀ x ∈ r, x ∈ s) {l la lb : List Category}
    (hl : ∀ g ∈ l, CategoryBuilt lt g) (h1 : filterK s l = .ok la) (h2 : filterK r l = .ok lb) :
    Less LessCategory lb la ∧ Less LessCategory la l := by
  have shape : ∀ {q : List CStr} {l' : List Category}, filterK q l = .ok l' →
      l' = l.filterMap (left (fun g => archKeep q (archesOf g.props)) (leftCategory q)) := by
    intro q l' h
    refine docFilterList_shape h (fun g hg => ⟨_, getArches_ok (categoryBuilt_inv (hl g hg)).props, rfl⟩) ?_
    intro x r hr
    cases hp : x.groupIds with
    | none => simp only [Category.archFilter, hp] at hr; cases hr
    | some z => rw [leftCategory_eq q ⟨z, hp⟩] at hr; cases hr; rfl
  rw [shape h1, shape h2]
  refine ⟨left_less (fun _ _ h => archKeep_sub hrs h) fun g _ => ⟨fun _ => rfl, fun _ => rfl, fun _ => rfl,
    members_less hrs _ _⟩, ?_⟩
  have h := left_less (R := LessCategory) (k1 := fun _ => true) (f1 := id) (l := l)
    (k2 := fun g => archKeep s (archesOf g.props)) (f2 := leftCategory s) (fun _ _ _ => rfl) fun g hg =>
    ⟨copy_same (categoryBuilt_inv (hl g hg)).props.reachable, copy_same (categoryBuilt_inv (hl g hg)).name.reach,
      copy_same (categoryBuilt_inv (hl g hg)).desc.reach, List.filter_sublist⟩
  rwa [left_all] at h

theorem envs_less {s r : List CStr} (hrs : ∀ x ∈ r, x ∈ s) {l la lb : List Env}
    (hl : ∀ g ∈ l, EnvBuilt lt g) (h1 : filterE s l = .ok la) (h2 : filterE r l = .ok lb) :
    Less LessEnv lb la ∧ Less LessEnv la l := by
  have shape : ∀ {q : List CStr} {l' : List Env}, filterE q l = .ok l' →
      l' = l.filterMap (left (fun g => archKeep q (archesOf g.props)) (leftEnv q)) := by
    intro q l' h
    refine docFilterList_shape h (fun g hg => ⟨_, getArches_ok (envBuilt_inv (hl g hg)).props, rfl⟩) ?_
    intro x r hr
    cases hp : x.groupList with
    | none => simp only [Env.archFilter, hp] at hr; cases hr
    | some z =>
      cases ho : x.optionList with
      | none => simp only [Env.archFilter, hp, ho] at hr; cases hr
      | some w => rw [leftEnv_eq q ⟨⟨z, hp⟩, w, ho⟩] at hr; cases hr; rfl
  rw [shape h1, shape h2]
  refine ⟨left_less (fun _ _ h => archKeep_sub hrs h) fun g _ => ⟨fun _ => rfl, fun _ => rfl, fun _ => rfl,
    members_less hrs _ _, members_less hrs _ _⟩, ?_⟩
  have h := left_less (R := LessEnv) (k1 := fun _ => true) (f1 := id) (l := l)
    (k2 := fun g => archKeep s (archesOf g.props)) (f2 := leftEnv s) (fun _ _ _ => rfl) fun g hg =>
    ⟨copy_same (envBuilt_inv (hl g hg)).props.reachable, copy_same (envBuilt_inv (hl g hg)).name.reach,
      copy_same (envBuilt_inv (hl g hg)).desc.reach, List.filter_sublist, List.filter_sublist⟩
  rwa [left_all] at h

/-- **C181.**  If a document can be filtered by `s`, and every architecture of `r` is in `s`, then it can be
filtered by `r`; what `r` leaves is some of what `s` leaves, and that is some of what the document has:
some of the entries, in the same order and with the same properties, each with some of its members. -/
theorem C181_documents {a d1 : Doc} (ha : DocBuilt lt a) {s r : List CStr} (hrs : ∀ x ∈ r, x ∈ s)
    (h1 : a.archFilter lt s = .ok d1) {c : DocContent} (hc : Shows lt a c) :
    ∃ d2 c1 c2, a.archFilter lt r = .ok d2 ∧ Shows lt d1 c1 ∧ Shows lt d2 c2 ∧ LessEntries c2 c1 ∧
      LessEntries c1 c := by
  obtain ⟨d2, h2⟩ := narrow_ok ha hrs h1
  have ia := docBuilt_inv ha
  have xa := contents_built ia
  obtain ⟨e, lg, lk, le, he, f1, f2, f3⟩ := archFilter_inv ia h1
  obtain ⟨e', mg, mk, me, he', g1, g2, g3⟩ := archFilter_inv ia h2
  obtain ⟨u1, k1, i1, k2, -⟩ := archFilter_ok ia he f1 f2 f3
  obtain ⟨u2, l1, i2, l2, -⟩ := archFilter_ok ia he' g1 g2 g3
  rw [h1] at k1; rw [h2] at l1
  cases k1; cases l1
  have p := groups_less hrs xa.1 f1 g1
  have q := categories_less hrs xa.2.1 f2 g2
  have o := envs_less hrs xa.2.2.1 f3 g3
  rw [shows_unique hc (shows_content ia)]
  refine ⟨d2, _, _, h2, shows_content i1, shows_content i2, ?_, ?_⟩
  · rw [k2, l2]; exact ⟨p.1, q.1, o.1⟩
  · rw [k2]; exact ⟨p.2, q.2, o.2⟩

/-- A document of which the wider filter leaves more than the narrower one, and not all. -/
example : ∃ (a d1 d2 : Doc) (c : DocContent), DocBuilt lt a ∧ Shows lt a c ∧
    (∀ x ∈ [cs b!"arm"], x ∈ [cs b!"i386", cs b!"arm"]) ∧
    a.archFilter lt [cs b!"i386", cs b!"arm"] = .ok d1 ∧ a.archFilter lt [cs b!"arm"] = .ok d2 ∧
    ∃ c1 c2, Shows lt d1 c1 ∧ Shows lt d2 c2 ∧ c.groups.length = 3 ∧
    c1.groups.map Group.getPackageList =
      [some [pkg b!"a" b!"1"], some [pkg b!"b" b!"2", forArches [cs b!"i386"]]] ∧
    c2.groups.map Group.getPackageList = [some [pkg b!"b" b!"2"]] := by
  obtain ⟨a, ha, he, sa⟩ := made (lt := lt)
    [.addGroup (archGrp lt [cs b!"i386"] [pkg b!"a" b!"1"]),
      .addGroup (archGrp lt [cs b!"i386", cs b!"arm"] [pkg b!"b" b!"2", forArches [cs b!"i386"]]),
      .addGroup (archGrp lt [cs b!"ppc"] [pkg b!"c" b!"3"])]
    (by simp [DocCall.Good, archGrp_built])
  have ia := docBuilt_inv ha
  have hc := shows_unique (shows_content ia) sa
  obtain ⟨d1, h1, i1, c1, -⟩ := archFilter_ok (req := [cs b!"i386", cs b!"arm"]) (lg := _) (lk := [])
    (le := []) ia he (by rw [hc]; rfl) (by rw [hc]; rfl) (by rw [hc]; rfl)
  obtain ⟨d2, h2, i2, c2, -⟩ := archFilter_ok (req := [cs b!"arm"]) (lg := _) (lk := []) (le := [])
    ia he (by rw [hc]; rfl) (by rw [hc]; rfl) (by rw [hc]; rfl)
  exact ⟨a, d1, d2, _, ha, sa, by simp, h1, h2, _, _, shows_content i1, shows_content i2, rfl,
    by rw [c1]; rfl, by rw [c2]; rfl⟩

end Comps.Props

open Comps.Props
#print axioms C181_documents
