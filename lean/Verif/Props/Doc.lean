import Verif.Lemmas.Doc
import Verif.Props.Group

/-!
# Properties of documents (C23, C24, C25, C26, C40, C41, C44, C55, C56, C57)

`lt` is the order of `char`, left arbitrary.  `Shows lt d c` says that `c` is what the getters of the
document `d` return.
-/

namespace Comps.Props
open Comps Comps.Spec Comps.Obj

variable {lt : UInt8 → UInt8 → Bool}

/-- A new document with the encoding "UTF-8". -/
def newDoc : Doc := Doc.make (some (cs b!"UTF-8"))
theorem newDoc_built : DocBuilt lt newDoc := .create (some (some (cs b!"UTF-8"))) rfl

/-- Calls one after the other. -/
def runCalls (lt : UInt8 → UInt8 → Bool) (d : Doc) (calls : List DocCall) : Res Doc :=
  calls.foldlM (DocCall.run lt) d

/-- The content of a new document. -/
def noContent : DocContent := ⟨[], [], [], RTree.create, MTree.create, MTree.create⟩

/-! ## C44: entry lists accumulate -/

/-- C44: whatever calls are made on a reachable document, no call faults and the getters show the
effect of the calls, in order: `add` appends to its list, `set` replaces it, and the other lists stay
as they are. -/
theorem C44_calls {d : Doc} (hd : DocBuilt lt d) {c : DocContent} (hc : Shows lt d c)
    (calls : List DocCall) (hg : ∀ x ∈ calls, x.Good lt) :
    ∃ d', runCalls lt d calls = .ok d' ∧ DocBuilt lt d' ∧
      Shows lt d' (calls.foldl (DocCall.effect lt) c) := by
  induction calls generalizing d c with
  | nil => exact ⟨d, rfl, hd, hc⟩
  | cons x xs ih =>
    have hi := docBuilt_inv hd
    obtain ⟨d1, h1, h2, h3⟩ := call_ok hi x (hg x (by simp))
    have hd1 : DocBuilt lt d1 := .call x (hg x (by simp)) hd h1
    have hs : Shows lt d1 (x.effect lt c) := by
      rw [shows_unique hc (shows_content hi), ← h3]; exact shows_content h2
    obtain ⟨d2, h4, h5, h6⟩ := ih hd1 hs fun y hy => hg y (by simp [hy])
    refine ⟨d2, ?_, h5, h6⟩
    simp only [runCalls, List.foldlM_cons, h1, bind, Except.bind]
    exact h4

/-- C44: a new document shows nothing, also after `comps_doc_set_lang`. -/
theorem C44_new {args : Option (Option CStr)} {d : Doc} (h : Doc.create args = .ok d)
    (s : Option CStr) : Shows lt d noContent ∧ Shows lt (d.setLang lt s) noContent := by
  obtain ⟨h1, h2⟩ := content_create (lt := lt) h
  obtain ⟨h3, h4⟩ := content_lang (lt := lt) h s
  constructor
  · rw [show noContent = content d from h2.symm]; exact shows_content h1
  · rw [show noContent = content (d.setLang lt s) from h4.symm]; exact shows_content h3

/-- C44: entries added to the lists of groups, categories and environments are at the end. -/
theorem C44_entries (g : Group) (p : Package) (c : Category) (i : GroupId) (e : Env) :
    (g.addPackage p).getPackageList = some (g.getPackageList.getD [] ++ [p]) ∧
    (c.addGroupId i).getGroupIds = some (c.getGroupIds.getD [] ++ [i]) ∧
    (e.addGroupId i).getGroupList = some (e.getGroupList.getD [] ++ [i]) ∧
    (e.addGroupId i).getOptionList = e.getOptionList ∧
    (e.addOptionId i).getOptionList = some (e.getOptionList.getD [] ++ [i]) ∧
    (e.addOptionId i).getGroupList = e.getGroupList := by
  unfold Group.addPackage Group.getPackageList Category.addGroupId Category.getGroupIds
    Env.addGroupId Env.getGroupList Env.addOptionId Env.getOptionList
  refine ⟨?_, ?_, ?_, ?_, ?_, ?_⟩ <;> split <;> simp_all

example : ∃ d', runCalls lt newDoc [.addGroup (grp []), .getCategories, .addGroup (grp [pkg b!"a" b!"b"]),
      .addCategory (cat [])] = .ok d' ∧ DocBuilt lt d' ∧
    Shows lt d' { noContent with groups := [grp [], grp [pkg b!"a" b!"b"]], categories := [cat []] } := by
  refine C44_calls newDoc_built (C44_new (args := some (some (cs b!"UTF-8"))) rfl none).1 _ ?_
  simp [DocCall.Good, grp_built, cat_built]

/-! ## C40: document type -/

/-- C40 for the name: the setter changes exactly that field. -/
theorem C40_name_partial (d : Doc) (v : Option CStr) :
    (d.setDoctypeName v).getDoctypeName = v ∧
    (d.setDoctypeName v).getDoctypeSysid = d.getDoctypeSysid ∧
    (d.setDoctypeName v).getDoctypePubid = d.getDoctypePubid := ⟨rfl, rfl, rfl⟩

/-- C40 is false for the system id and the public id: the setters never change them, and replace the
name instead. -/
theorem C40_false (d : Doc) (v : Option CStr) :
    (d.setDoctypeSysid v).getDoctypeSysid = d.getDoctypeSysid ∧
    (d.setDoctypeSysid v).getDoctypeName = v ∧
    (d.setDoctypePubid v).getDoctypePubid = d.getDoctypePubid ∧
    (d.setDoctypePubid v).getDoctypeName = v := ⟨rfl, rfl, rfl, rfl⟩

/-- C40 is false: a document and a system id such that setting it has no effect on it. -/
theorem C40_false_witness : ∃ (d : Doc) (v : Option CStr), DocBuilt lt d ∧
    (d.setDoctypeSysid v).getDoctypeSysid ≠ v ∧ (d.setDoctypePubid v).getDoctypePubid ≠ v :=
  ⟨newDoc, none, newDoc_built, by simp [newDoc, Doc.make, Doc.setDoctypeSysid, Doc.getDoctypeSysid],
    by simp [newDoc, Doc.make, Doc.setDoctypePubid, Doc.getDoctypePubid]⟩

/-! ## C23: union -/

/-- Same lookups in the three dictionaries and the same packages. -/
structure SameGroup (a b : Group) : Prop where
  props : SameDict a.props b.props
  name : SameDict a.nameByLang b.nameByLang
  desc : SameDict a.descByLang b.descByLang
  packages : a.getPackageList = b.getPackageList

/-- Same lookups in the three dictionaries and the same group ids. -/
structure SameCategory (a b : Category) : Prop where
  props : SameDict a.props b.props
  name : SameDict a.nameByLang b.nameByLang
  desc : SameDict a.descByLang b.descByLang
  ids : a.getGroupIds = b.getGroupIds

/-- Same lookups in the three dictionaries and the same lists of group ids. -/
structure SameEnv (a b : Env) : Prop where
  props : SameDict a.props b.props
  name : SameDict a.nameByLang b.nameByLang
  desc : SameDict a.descByLang b.descByLang
  groups : a.getGroupList = b.getGroupList
  options : a.getOptionList = b.getOptionList

/-- What the union of two lists of entries with distinct ids should be: the entries only the first
has, then for each entry of the second itself or the merge of both. -/
def wantedUnion {α : Type} (props : α → RTree PVal) (mrg : α → α → α) (a b : List α) : List α :=
  (a.filter fun x => idOf (props x) ∉ b.map fun y => idOf (props y)) ++
    b.map fun y => match a.find? fun x => idOf (props x) = idOf (props y) with
      | some x => mrg x y
      | none => y

/-- C23: the union of two documents holds, for each kind of entry, exactly the ids of both, each
once.  (An entry without an id counts as having the id "none".)  The language packs are those of
the second document, and those of the first for the languages the second has none. -/
theorem C23_ids {a b : Doc} (ha : DocBuilt lt a) (hb : DocBuilt lt b) {e : CStr}
    (he : a.encoding = some e) {ca cb : DocContent} (sa : Shows lt a ca) (sb : Shows lt b cb) :
    ∃ d c, a.union lt b = .ok d ∧ Shows lt d c ∧
      UniqueNames (fun g : Group => idOf g.props) c.groups ∧
      (∀ k, k ∈ c.groups.map (fun g => idOf g.props) ↔
        k ∈ ca.groups.map (fun g => idOf g.props) ∨ k ∈ cb.groups.map (fun g => idOf g.props)) ∧
      UniqueNames (fun g : Category => idOf g.props) c.categories ∧
      (∀ k, k ∈ c.categories.map (fun g => idOf g.props) ↔
        k ∈ ca.categories.map (fun g => idOf g.props) ∨
        k ∈ cb.categories.map (fun g => idOf g.props)) ∧
      UniqueNames (fun g : Env => idOf g.props) c.environments ∧
      (∀ k, k ∈ c.environments.map (fun g => idOf g.props) ↔
        k ∈ ca.environments.map (fun g => idOf g.props) ∨
        k ∈ cb.environments.map (fun g => idOf g.props)) ∧
      (∀ k, c.langpacks.get k = (cb.langpacks.get k).or (ca.langpacks.get k)) := by
  have ia := docBuilt_inv ha
  have ib := docBuilt_inv hb
  rw [shows_unique sa (shows_content ia), shows_unique sb (shows_content ib)]
  obtain ⟨d, h1, h2, h3, -⟩ := union_ok ia ib he
  have xa := contents_built ia
  have xb := contents_built ib
  obtain ⟨g1, -, g2⟩ := docUnionList_ok Group.idcmp_iff groupMerge xa.1 xb.1
  obtain ⟨c1, -, c2⟩ := docUnionList_ok Category.idcmp_iff categoryMerge xa.2.1 xb.2.1
  obtain ⟨e1, -, e2⟩ := docUnionList_ok Env.idcmp_iff envMerge xa.2.2.1 xb.2.2.1
  refine ⟨d, _, h1, shows_content h2, ?_⟩
  rw [h3]
  exact ⟨g1, g2, c1, c2, e1, e2, fun k => union_get (langBuilt_inv xa.2.2.2.1).reach
    (langBuilt_inv xb.2.2.2.1).reach k⟩

theorem alike_map {α β γ : Type} {R : β → γ → Prop} (f : α → β) (g : α → γ) (l : List α)
    (h : ∀ x ∈ l, R (f x) (g x)) : Alike R (l.map f) (l.map g) := by
  refine ⟨by simp, ?_⟩
  intro i x y hx hy
  rw [List.getElem?_map] at hx hy
  cases hz : l[i]? with
  | none => rw [hz] at hx; simp at hx
  | some z =>
    rw [hz] at hx hy
    simp at hx hy
    subst hx; subst hy
    exact h z (List.mem_of_getElem? hz)

theorem alike_append {β γ : Type} {R : β → γ → Prop} {a b : List β} {a' b' : List γ}
    (h : Alike R a a') (h' : Alike R b b') : Alike R (a ++ b) (a' ++ b') := by
  refine ⟨by simp [h.1, h'.1], ?_⟩
  intro i x y hx hy
  rw [List.getElem?_append] at hx hy
  rw [← h.1] at hy
  split at hx
  · rename_i hi
    rw [if_pos hi] at hy
    exact h.2 i x y hx hy
  · rename_i hi
    rw [if_neg hi] at hy
    exact h'.2 _ x y hx hy

theorem wantedUnion_alike {α : Type} {R : α → α → Prop} {P : α → Prop} {eqf : α → α → Bool}
    {props : α → RTree PVal} {copy : α → α} {mrg : α → α → α}
    (hk : ByKey eqf fun x => idOf (props x))
    (hm : MergeOk (fun x => idOf (props x)) copy mrg P) {l1 l2 : List α}
    (h1 : ∀ x ∈ l1, P x) (h2 : ∀ x ∈ l2, P x)
    (u1 : UniqueNames (fun x => idOf (props x)) l1) (u2 : UniqueNames (fun x => idOf (props x)) l2)
    (hcopy : ∀ x, P x → R (copy x) x) (hmrg : ∀ x y, P x → P y → R (mrg (copy x) y) (mrg x y)) :
    Alike R (docUnionList eqf copy mrg l1 l2) (wantedUnion props mrg l1 l2) := by
  rw [docUnionList_eq hk hm h1 h2 u1 u2]
  refine alike_append ?_ ?_
  · have gen : ∀ p q : α → Bool, (∀ x, p x = q x) →
        Alike R ((l1.filter p).map copy) (l1.filter q) := by
      intro p q hpq
      have := alike_map (R := R) copy id (l1.filter p)
        fun x hx => hcopy x (h1 x (List.mem_filter.1 hx).1)
      rw [List.map_id] at this
      rw [← funext hpq]
      exact this
    exact gen _ _ fun x => decide_eq_decide.2 Iff.rfl
  · refine alike_map _ _ _ fun y hy => ?_
    cases hf : l1.find? (fun x => decide (idOf (props x) = idOf (props y))) with
    | none => exact hcopy y (h2 y hy)
    | some x => exact hmrg x y (h1 x (List.mem_of_find?_eq_some hf)) (h2 y hy)

theorem group_copy_same {g : Group} (h : GroupBuilt lt g) : SameGroup g.copy g := by
  have i := groupBuilt_inv h
  refine ⟨copy_same i.props.reachable, copy_same i.name.reach, copy_same i.desc.reach, ?_⟩
  have : Package.copy = id := funext Package.copy_eq
  show objCopy (listCopy Package.copy) g.packages = g.packages
  rw [this]
  cases g.packages <;> simp [objCopy, listCopy]

theorem category_copy_same {g : Category} (h : CategoryBuilt lt g) : SameCategory g.copy g := by
  have i := categoryBuilt_inv h
  refine ⟨copy_same i.props.reachable, copy_same i.name.reach, copy_same i.desc.reach, ?_⟩
  have : GroupId.copy = id := funext GroupId.copy_eq
  show objCopy (listCopy GroupId.copy) g.groupIds = g.groupIds
  rw [this]
  cases g.groupIds <;> simp [objCopy, listCopy]

theorem env_copy_same {g : Env} (h : EnvBuilt lt g) : SameEnv g.copy g := by
  have i := envBuilt_inv h
  have : GroupId.copy = id := funext GroupId.copy_eq
  refine ⟨copy_same i.props.reachable, copy_same i.name.reach, copy_same i.desc.reach, ?_, ?_⟩
  · show objCopy (listCopy GroupId.copy) g.groupList = g.groupList
    rw [this]
    cases g.groupList <;> simp [objCopy, listCopy]
  · show objCopy (listCopy GroupId.copy) g.optionList = g.optionList
    rw [this]
    cases g.optionList <;> simp [objCopy, listCopy]

theorem group_union_same {x y : Group} (h : GroupBuilt lt x) (h' : GroupBuilt lt y) :
    SameGroup (x.copy.union lt y) (x.union lt y) := by
  have s := group_copy_same h
  have i := groupBuilt_inv h
  have j := groupBuilt_inv h'
  have c := groupBuilt_inv (GroupBuilt.copy h)
  refine ⟨fun k => ?_, fun k => ?_, fun k => ?_, ?_⟩
  · exact (union_get c.props.reachable j.props.reachable k).trans
      ((congrArg _ (s.props k)).trans (union_get i.props.reachable j.props.reachable k).symm)
  · exact (union_get c.name.reach j.name.reach k).trans
      ((congrArg _ (s.name k)).trans (union_get i.name.reach j.name.reach k).symm)
  · exact (union_get c.desc.reach j.desc.reach k).trans
      ((congrArg _ (s.desc k)).trans (union_get i.desc.reach j.desc.reach k).symm)
  · have e : x.copy.packages = x.packages := s.packages
    show some (unionList _ _ x.copy.packages _) = some (unionList _ _ x.packages _)
    rw [e]

theorem category_union_same {x y : Category} (h : CategoryBuilt lt x) (h' : CategoryBuilt lt y) :
    SameCategory (x.copy.union lt y) (x.union lt y) := by
  have s := category_copy_same h
  have i := categoryBuilt_inv h
  have j := categoryBuilt_inv h'
  have c := categoryBuilt_inv (CategoryBuilt.copy h)
  refine ⟨fun k => ?_, fun k => ?_, fun k => ?_, ?_⟩
  · exact (union_get c.props.reachable j.props.reachable k).trans
      ((congrArg _ (s.props k)).trans (union_get i.props.reachable j.props.reachable k).symm)
  · exact (union_get c.name.reach j.name.reach k).trans
      ((congrArg _ (s.name k)).trans (union_get i.name.reach j.name.reach k).symm)
  · exact (union_get c.desc.reach j.desc.reach k).trans
      ((congrArg _ (s.desc k)).trans (union_get i.desc.reach j.desc.reach k).symm)
  · have e : x.copy.groupIds = x.groupIds := s.ids
    show some (unionList _ _ x.copy.groupIds _) = some (unionList _ _ x.groupIds _)
    rw [e]

theorem env_union_same {x y : Env} (h : EnvBuilt lt x) (h' : EnvBuilt lt y) :
    SameEnv (x.copy.union lt y) (x.union lt y) := by
  have s := env_copy_same h
  have i := envBuilt_inv h
  have j := envBuilt_inv h'
  have c := envBuilt_inv (EnvBuilt.copy h)
  have e1 : x.copy.groupList = x.groupList := s.groups
  have e2 : x.copy.optionList = x.optionList := s.options
  refine ⟨fun k => ?_, fun k => ?_, fun k => ?_, ?_, ?_⟩
  · exact (union_get c.props.reachable j.props.reachable k).trans
      ((congrArg _ (s.props k)).trans (union_get i.props.reachable j.props.reachable k).symm)
  · exact (union_get c.name.reach j.name.reach k).trans
      ((congrArg _ (s.name k)).trans (union_get i.name.reach j.name.reach k).symm)
  · exact (union_get c.desc.reach j.desc.reach k).trans
      ((congrArg _ (s.desc k)).trans (union_get i.desc.reach j.desc.reach k).symm)
  · show some (unionList _ _ x.copy.groupList _) = some (unionList _ _ x.groupList _)
    rw [e1]
  · show some (unionList _ _ x.copy.optionList _) = some (unionList _ _ x.optionList _)
    rw [e2]

/-- C23, entries: for documents with distinct ids the union holds, in order, the entries only the
first has and then those of the second, each merged with the entry of that id in the first if there
is one (what merging means is C20 and C22).  Missing: documents in which an id occurs twice
(`C23_false_repeated`), first documents without encoding (`C23_false_encoding`). -/
theorem C23_entries_partial {a b : Doc} (ha : DocBuilt lt a) (hb : DocBuilt lt b) {e : CStr}
    (he : a.encoding = some e) {ca cb : DocContent} (sa : Shows lt a ca) (sb : Shows lt b cb)
    (g1 : UniqueNames (fun g : Group => idOf g.props) ca.groups)
    (g2 : UniqueNames (fun g : Group => idOf g.props) cb.groups)
    (k1 : UniqueNames (fun g : Category => idOf g.props) ca.categories)
    (k2 : UniqueNames (fun g : Category => idOf g.props) cb.categories)
    (e1 : UniqueNames (fun g : Env => idOf g.props) ca.environments)
    (e2 : UniqueNames (fun g : Env => idOf g.props) cb.environments) :
    ∃ d c, a.union lt b = .ok d ∧ Shows lt d c ∧
      Alike SameGroup c.groups (wantedUnion Group.props (Group.union lt) ca.groups cb.groups) ∧
      Alike SameCategory c.categories
        (wantedUnion Category.props (Category.union lt) ca.categories cb.categories) ∧
      Alike SameEnv c.environments
        (wantedUnion Env.props (Env.union lt) ca.environments cb.environments) := by
  have ia := docBuilt_inv ha
  have ib := docBuilt_inv hb
  rw [shows_unique sa (shows_content ia)] at *
  rw [shows_unique sb (shows_content ib)] at *
  obtain ⟨d, h1, h2, h3, -⟩ := union_ok ia ib he
  have xa := contents_built ia
  have xb := contents_built ib
  refine ⟨d, _, h1, shows_content h2, ?_⟩
  rw [h3]
  exact ⟨wantedUnion_alike Group.idcmp_iff groupMerge xa.1 xb.1 g1 g2
      (fun _ => group_copy_same) (fun _ _ => group_union_same),
    wantedUnion_alike Category.idcmp_iff categoryMerge xa.2.1 xb.2.1 k1 k2
      (fun _ => category_copy_same) (fun _ _ => category_union_same),
    wantedUnion_alike Env.idcmp_iff envMerge xa.2.2.1 xb.2.2.1 e1 e2
      (fun _ => env_copy_same) (fun _ _ => env_union_same)⟩

/-- C23 is false for every first document without encoding (`comps_doc_create(NULL, 0)`): the union
dereferences NULL. -/
theorem C23_false_encoding {a b : Doc} (ha : DocBuilt lt a) (he : a.encoding = none) :
    a.union lt b = .error .nullDeref := by
  obtain ⟨a1, x1, i1, c1', r1⟩ := groupsAt.getObj (docBuilt_inv ha)
  obtain ⟨a2, x2, i2, c2', r2⟩ := categoriesAt.getObj i1
  obtain ⟨a3, x3, i3, c3', r3⟩ := environmentsAt.getObj i2
  have he3 : a3.encoding = none := by
    rw [rest_encoding r3, rest_encoding r2, rest_encoding r1, he]
  simp [Doc.union, x1, x2, x3, he3, Doc.create, bind, Except.bind]

example : ∃ a, DocBuilt lt a ∧ a.encoding = none := ⟨_, .create none rfl, rfl⟩

/-- A group with an id and a package. -/
def idGrp (lt : UInt8 → UInt8 → Bool) (id : Bytes) (l : List Package) : Group :=
  { grp l with props := (PropCall.str .id (some id)).run lt RTree.create }

theorem idGrp_built (id : Bytes) (l : List Package) : GroupBuilt lt (idGrp lt id l) := by
  have h : ∀ (l : List Package) (g : Group), g.props = RTree.create →
      (l.foldl Group.addPackage g).props = RTree.create := by
    intro l
    induction l with
    | nil => exact fun _ h => h
    | cons x xs ih =>
      intro g hg
      refine ih _ ?_
      unfold Group.addPackage
      split <;> exact hg
  have : idGrp lt id l = { grp l with props := (PropCall.str .id (some id)).run lt (grp l).props } := by
    unfold idGrp
    rw [show (grp l).props = RTree.create from h l _ rfl]
  rw [this]
  exact .prop _ (grp_built l)

theorem getObj_encoding {α : Type} {s : Slot α} {d d' : Doc} {x : α}
    (h : d.getObj lt s = .ok (x, d')) : d'.encoding = d.encoding := by
  unfold Doc.getObj at h
  split at h
  · simp at h; rw [← h.2]
  · split at h
    · simp at h; rw [← h.2]
    · simp at h

theorem addObj_encoding {α : Type} {s : Slot α} {d d' : Doc} {f : α → α}
    (h : d.addObj lt s f = .ok d') : d'.encoding = d.encoding := by
  unfold Doc.addObj at h
  split at h
  · simp at h; rw [← h]; rfl
  · split at h
    · simp at h; rw [← h]; rfl
    · simp at h

theorem run_encoding {d d' : Doc} (c : DocCall) (h : c.run lt d = .ok d') :
    d'.encoding = d.encoding := by
  have hg : ∀ {α : Type} {s : Slot α}, (·.2) <$> d.getObj lt s = .ok d' →
      d'.encoding = d.encoding := by
    intro α s h
    cases hx : d.getObj lt s with
    | error f => rw [hx] at h; simp [Functor.map, Except.map] at h
    | ok p =>
      rw [hx] at h
      simp [Functor.map, Except.map] at h
      rw [← h]
      exact getObj_encoding (x := p.1) hx
  cases c <;> simp only [DocCall.run] at h
  case getGroups => exact hg h
  case getCategories => exact hg h
  case getEnvironments => exact hg h
  case getLangpacks => exact hg h
  case getBlacklist => exact hg h
  case getWhiteout => exact hg h
  case addGroup => exact addObj_encoding h
  case addCategory => exact addObj_encoding h
  case addEnvironment => exact addObj_encoding h
  case addLangpack => exact addObj_encoding h
  case addBlacklist => exact addObj_encoding h
  case addWhiteout => exact addObj_encoding h
  all_goals
    simp only [Except.ok.injEq] at h
    rw [← h]; rfl

/-- A document made by calls on a new one. -/
theorem made (calls : List DocCall) (hg : ∀ x ∈ calls, x.Good lt) :
    ∃ d, DocBuilt lt d ∧ d.encoding = some (cs b!"UTF-8") ∧
      Shows lt d (calls.foldl (DocCall.effect lt) noContent) := by
  obtain ⟨a, h1, h2, h3⟩ := C44_calls newDoc_built
    (C44_new (args := some (some (cs b!"UTF-8"))) rfl none).1 _ hg
  refine ⟨a, h2, ?_, h3⟩
  have : ∀ (calls : List DocCall) (d d' : Doc), runCalls lt d calls = .ok d' →
      d'.encoding = d.encoding := by
    intro calls
    induction calls with
    | nil => intro d d' h; simp [runCalls, pure, Except.pure] at h; rw [h]
    | cons x xs ih =>
      intro d d' h
      simp only [runCalls, List.foldlM_cons, bind, Except.bind] at h
      cases hx : x.run lt d with
      | error f => rw [hx] at h; simp at h
      | ok d1 =>
        rw [hx] at h
        exact (ih d1 d' h).trans (run_encoding x hx)
  exact this calls newDoc a h1

/-- C23 fails when an id occurs twice in one document: the second group of that id is dropped, and
its package is in no group of the union. -/
theorem C23_false_repeated : ∃ (a b d : Doc) (ca c : DocContent) (p : Package),
    DocBuilt lt a ∧ DocBuilt lt b ∧ Shows lt a ca ∧ a.union lt b = .ok d ∧ Shows lt d c ∧
    (∃ g ∈ ca.groups, p ∈ g.getPackageList.getD []) ∧
    ∀ g ∈ c.groups, p ∉ g.getPackageList.getD [] := by
  obtain ⟨a, h2, this, h3⟩ := made (lt := lt) [DocCall.setGroups (some [idGrp lt b!"g" [pkg b!"a" b!"1"],
      idGrp lt b!"g" [pkg b!"b" b!"2"]])] (by simp [DocCall.Good, idGrp_built])
  have h0 := (C44_new (lt := lt) (args := some (some (cs b!"UTF-8"))) rfl none).1
  have ia := docBuilt_inv h2
  have ib := docBuilt_inv (newDoc_built (lt := lt))
  obtain ⟨d, k1, k2, k3, -⟩ := union_ok ia ib this
  rw [shows_unique (shows_content ia) h3, shows_unique (shows_content ib) h0] at k3
  refine ⟨a, newDoc, d, _, _, pkg b!"b" b!"2", h2, newDoc_built, h3, k1, shows_content k2, ?_, ?_⟩
  · exact ⟨_, List.mem_cons_of_mem _ (List.mem_cons_self ..), by
      show _ ∈ [pkg b!"b" b!"2"]
      simp⟩
  · rw [k3]
    show ∀ g ∈ [(idGrp lt b!"g" [pkg b!"a" b!"1"]).copy], _
    intro g hg
    rw [List.mem_singleton.1 hg]
    show _ ∉ [pkg b!"a" b!"1"]
    decide

/-- Two documents meeting the hypotheses of C23, with one id in both and one in each. -/
example : ∃ (a b : Doc) (ca cb : DocContent), DocBuilt lt a ∧ DocBuilt lt b ∧
    a.encoding = some (cs b!"UTF-8") ∧ Shows lt a ca ∧ Shows lt b cb ∧
    UniqueNames (fun g : Group => idOf g.props) ca.groups ∧
    UniqueNames (fun g : Group => idOf g.props) cb.groups ∧
    (wantedUnion Group.props (Group.union lt) ca.groups cb.groups).map Group.getPackageList =
      [some [pkg b!"a" b!"1"], some [pkg b!"b" b!"2", pkg b!"c" b!"3"]] := by
  obtain ⟨a, h2, h3, h4⟩ := made (lt := lt) [.addGroup (idGrp lt b!"g" [pkg b!"a" b!"1"]),
    .addGroup (idGrp lt b!"h" [pkg b!"b" b!"2"])] (by simp [DocCall.Good, idGrp_built])
  obtain ⟨b, k2, -, k4⟩ := made (lt := lt) [.addGroup (idGrp lt b!"h" [pkg b!"c" b!"3"])]
    (by simp [DocCall.Good, idGrp_built])
  refine ⟨a, b, _, _, h2, k2, h3, h4, k4, ?_, ?_, ?_⟩
  · show ([some (PVal.str (cs b!"g")), some (PVal.str (cs b!"h"))]).Nodup
    decide
  · show ([some (PVal.str (cs b!"h"))]).Nodup
    decide
  · rfl

/-! ## C24: intersection -/

/-- No list of an entry is NULL. -/
def FullLists (c : DocContent) : Prop :=
  (∀ g ∈ c.groups, ∃ l, g.getPackageList = some l) ∧
  (∀ g ∈ c.categories, ∃ l, g.getGroupIds = some l) ∧
  ∀ g ∈ c.environments, (∃ l, g.getGroupList = some l) ∧ ∃ l, g.getOptionList = some l

/-- The entry `r` is the intersection of `y` and the first entry of that id in `l1`, and keeps the
id. -/
def Common {α : Type} (props : α → RTree PVal) (common : α → α → Res α) (l1 : List α) (r y : α) :
    Prop :=
  ∃ x, l1.find? (fun x => idOf (props x) = idOf (props y)) = some x ∧ common y x = .ok r ∧
    idOf (props r) = idOf (props y)

theorem intersect_id {t1 t2 : RTree PVal} (h1 : Reachable lt t1) (h2 : Reachable lt t2)
    (e : idOf t1 = idOf t2) : idOf (intersectProps lt t1 t2) = idOf t1 := by
  unfold idOf at *
  apply Option.ext
  intro v
  rw [intersectProps_get h1 h2, ← e, and_self]

theorem common_ids {α : Type} {props : α → RTree PVal} {common : α → α → Res α} {l1 l l2 : List α}
    (h : Alike (Common props common l1) l l2) :
    l.map (fun g => idOf (props g)) = l2.map fun g => idOf (props g) := by
  apply List.ext_getElem?
  intro i
  rw [List.getElem?_map, List.getElem?_map]
  rcases Nat.lt_or_ge i l.length with hi | hi
  · have hi' : i < l2.length := h.1 ▸ hi
    rw [List.getElem?_eq_getElem hi, List.getElem?_eq_getElem hi']
    obtain ⟨x, -, -, e⟩ := h.2 i _ _ (List.getElem?_eq_getElem hi) (List.getElem?_eq_getElem hi')
    simp [e]
  · rw [List.getElem?_eq_none hi, List.getElem?_eq_none (h.1 ▸ hi)]

theorem intersect_common {α : Type} {P : α → Prop} {eqf : α → α → Bool} {props : α → RTree PVal}
    {common : α → α → Res α} {l1 l2 : List α} (hk : ByKey eqf fun x => idOf (props x))
    (h1 : ∀ x ∈ l1, P x) (h2 : ∀ x ∈ l2, P x)
    (hc : ∀ x ∈ l1, ∀ y ∈ l2, ∃ r, common y x = .ok r)
    (hid : ∀ x y r, P x → P y → idOf (props y) = idOf (props x) → common y x = .ok r →
      idOf (props r) = idOf (props y)) :
    ∃ l, docIntersectList eqf common l1 l2 = .ok l ∧ Alike (Common props common l1) l
      (l2.filter fun y => idOf (props y) ∈ l1.map fun x => idOf (props x)) := by
  obtain ⟨l, h3, h4, h5⟩ := docIntersectList_ok hk fun x hx y hy _ => hc x hx y hy
  have e : (l2.filter fun y => decide (idOf (props y) ∈ l1.map fun x => idOf (props x))) =
      l2.filter fun y => idOf (props y) ∈ l1.map fun x => idOf (props x) :=
    List.filter_congr fun _ _ => decide_eq_decide.2 Iff.rfl
  refine ⟨l, h3, by rw [h4]; exact congrArg _ (List.filter_congr fun _ _ => decide_eq_decide.2 Iff.rfl),
    ?_⟩
  intro i r y hr hy
  obtain ⟨x, r', k1, k2, k3⟩ := h5 i y (by
    rw [← hy]; congr 1; exact List.filter_congr fun _ _ => decide_eq_decide.2 Iff.rfl)
  rw [hr] at k3; cases k3
  have hx := List.mem_of_find?_eq_some k1
  have hxy : idOf (props x) = idOf (props y) := by simpa using List.find?_some k1
  exact ⟨x, k1, k2, hid x y r (h1 x hx) (h2 y (List.mem_filter.1 (List.mem_of_getElem? hy)).1)
    hxy.symm k2⟩

/-- C24: if the first document has an encoding and no list of an entry is NULL, the intersection
holds, in the order of the second document, an entry for exactly the entries of the second document
whose id the first has; it has that id, and is the intersection of the two entries (C21, C22).
Missing: the other documents (`C24_false_encoding`, `C24_false_null`). -/
theorem C24_partial {a b : Doc} (ha : DocBuilt lt a) (hb : DocBuilt lt b) {e : CStr}
    (he : a.encoding = some e) {ca cb : DocContent} (sa : Shows lt a ca) (sb : Shows lt b cb)
    (fa : FullLists ca) (fb : FullLists cb) :
    ∃ d c, a.intersect lt b = .ok d ∧ Shows lt d c ∧
      Alike (Common Group.props (Group.intersect lt) ca.groups) c.groups
        (cb.groups.filter fun y => idOf y.props ∈ ca.groups.map fun x => idOf x.props) ∧
      Alike (Common Category.props (Category.intersect lt) ca.categories) c.categories
        (cb.categories.filter fun y => idOf y.props ∈ ca.categories.map fun x => idOf x.props) ∧
      Alike (Common Env.props (Env.intersect lt) ca.environments) c.environments
        (cb.environments.filter fun y => idOf y.props ∈ ca.environments.map fun x => idOf x.props) ∧
      (∀ k, k ∈ c.groups.map (fun g => idOf g.props) ↔
        k ∈ ca.groups.map (fun g => idOf g.props) ∧ k ∈ cb.groups.map (fun g => idOf g.props)) ∧
      (∀ k, k ∈ c.categories.map (fun g => idOf g.props) ↔
        k ∈ ca.categories.map (fun g => idOf g.props) ∧
        k ∈ cb.categories.map (fun g => idOf g.props)) ∧
      (∀ k, k ∈ c.environments.map (fun g => idOf g.props) ↔
        k ∈ ca.environments.map (fun g => idOf g.props) ∧
        k ∈ cb.environments.map (fun g => idOf g.props)) := by
  have ia := docBuilt_inv ha
  have ib := docBuilt_inv hb
  rw [shows_unique sa (shows_content ia)] at *
  rw [shows_unique sb (shows_content ib)] at *
  have xa := contents_built ia
  have xb := contents_built ib
  obtain ⟨lg, g1, g2⟩ := intersect_common (props := Group.props) (common := Group.intersect lt)
    Group.idcmp_iff xa.1 xb.1
    (by
      intro x hx y hy
      obtain ⟨l, hl⟩ := fa.1 x hx
      obtain ⟨l', hl'⟩ := fb.1 y hy
      obtain ⟨r, -, h, -⟩ := C21_packages_partial (lt := lt) y x l' l hl' hl
      exact ⟨r, h⟩)
    (by
      intro x y r hx hy hxy h
      simp only [Group.intersect, bind, Except.bind] at h
      split at h
      · simp at h
      · simp [pure, Except.pure] at h; subst h
        exact intersect_id (groupBuilt_inv hy).props.reachable (groupBuilt_inv hx).props.reachable hxy)
  obtain ⟨lk, k1, k2⟩ := intersect_common (props := Category.props)
    (common := Category.intersect lt) Category.idcmp_iff xa.2.1 xb.2.1
    (by
      intro x hx y hy
      obtain ⟨l, hl⟩ := fa.2.1 x hx
      obtain ⟨l', hl'⟩ := fb.2.1 y hy
      obtain ⟨r, -, h, -⟩ := C22_intersect_partial (lt := lt) y x l' l hl' hl
      exact ⟨r, h⟩)
    (by
      intro x y r hx hy hxy h
      simp only [Category.intersect, bind, Except.bind] at h
      split at h
      · simp at h
      · simp [pure, Except.pure] at h; subst h
        exact intersect_id (categoryBuilt_inv hy).props.reachable
          (categoryBuilt_inv hx).props.reachable hxy)
  obtain ⟨le, e1, e2⟩ := intersect_common (props := Env.props)
    (common := Env.intersect lt) Env.idcmp_iff xa.2.2.1 xb.2.2.1
    (by
      intro x hx y hy
      obtain ⟨⟨l, hl⟩, o, ho⟩ := fa.2.2 x hx
      obtain ⟨⟨l', hl'⟩, o', ho'⟩ := fb.2.2 y hy
      obtain ⟨r, -, -, h, -⟩ := C22_intersect_env_partial (lt := lt) y x l' l o' o hl' hl ho' ho
      exact ⟨r, h⟩)
    (by
      intro x y r hx hy hxy h
      simp only [Env.intersect, bind, Except.bind] at h
      split at h
      · simp at h
      · split at h
        · simp at h
        · simp [pure, Except.pure] at h; subst h
          exact intersect_id (envBuilt_inv hy).props.reachable (envBuilt_inv hx).props.reachable hxy)
  obtain ⟨d, h1, h2, h3, -⟩ := intersect_ok ia ib he g1 k1 e1
  refine ⟨d, _, h1, shows_content h2, ?_⟩
  rw [h3]
  refine ⟨g2, k2, e2, ?_, ?_, ?_⟩
  · intro k
    show k ∈ lg.map _ ↔ _
    rw [common_ids g2]
    simp only [List.mem_map, List.mem_filter, decide_eq_true_iff]
    constructor
    · rintro ⟨y, ⟨h1, h2⟩, rfl⟩; exact ⟨h2, y, h1, rfl⟩
    · rintro ⟨h2, y, h1, rfl⟩; exact ⟨y, ⟨h1, h2⟩, rfl⟩
  · intro k
    show k ∈ lk.map _ ↔ _
    rw [common_ids k2]
    simp only [List.mem_map, List.mem_filter, decide_eq_true_iff]
    constructor
    · rintro ⟨y, ⟨h1, h2⟩, rfl⟩; exact ⟨h2, y, h1, rfl⟩
    · rintro ⟨h2, y, h1, rfl⟩; exact ⟨y, ⟨h1, h2⟩, rfl⟩
  · intro k
    show k ∈ le.map _ ↔ _
    rw [common_ids e2]
    simp only [List.mem_map, List.mem_filter, decide_eq_true_iff]
    constructor
    · rintro ⟨y, ⟨h1, h2⟩, rfl⟩; exact ⟨h2, y, h1, rfl⟩
    · rintro ⟨h2, y, h1, rfl⟩; exact ⟨y, ⟨h1, h2⟩, rfl⟩

/-- C24 is false for every first document without encoding. -/
theorem C24_false_encoding {a b : Doc} (ha : DocBuilt lt a) (he : a.encoding = none) :
    a.intersect lt b = .error .nullDeref := by
  obtain ⟨a1, x1, i1, c1', r1⟩ := groupsAt.getObj (docBuilt_inv ha)
  obtain ⟨a2, x2, i2, c2', r2⟩ := categoriesAt.getObj i1
  obtain ⟨a3, x3, i3, c3', r3⟩ := environmentsAt.getObj i2
  have he3 : a3.encoding = none := by
    rw [rest_encoding r3, rest_encoding r2, rest_encoding r1, he]
  simp [Doc.intersect, x1, x2, x3, he3, Doc.create, bind, Except.bind]

/-- C24 is false for documents with a NULL package list in an entry both have. -/
theorem C24_false_null : ∃ a b : Doc, DocBuilt lt a ∧ DocBuilt lt b ∧
    a.encoding = some (cs b!"UTF-8") ∧ ∀ d, a.intersect lt b ≠ .ok d := by
  have hg : GroupBuilt lt (Group.create.setPackageList none) := .setPackages none .create
  obtain ⟨a, h2, h3, h4⟩ := made (lt := lt) [.addGroup (Group.create.setPackageList none)]
    (by simp [DocCall.Good, hg])
  refine ⟨a, a, h2, h2, h3, ?_⟩
  intro d hd
  have ia := docBuilt_inv h2
  obtain ⟨-, lg, -, -, -, h5, -⟩ := intersect_inv ia ia hd
  rw [shows_unique (shows_content ia) h4] at h5
  have : docIntersectList Group.idcmp (Group.intersect lt) [Group.create.setPackageList none]
    [Group.create.setPackageList none] = .error .nullDeref := rfl
  exact absurd (this.symm.trans h5) (by simp)

example : ∃ (a b : Doc) (ca cb : DocContent), DocBuilt lt a ∧ DocBuilt lt b ∧
    a.encoding = some (cs b!"UTF-8") ∧ Shows lt a ca ∧ Shows lt b cb ∧ FullLists ca ∧ FullLists cb ∧
    (cb.groups.filter fun y => idOf y.props ∈ ca.groups.map fun x => idOf x.props).map
      Group.getPackageList = [some [pkg b!"c" b!"3"]] := by
  obtain ⟨a, h2, h3, h4⟩ := made (lt := lt) [.addGroup (idGrp lt b!"g" [pkg b!"a" b!"1"]),
    .addGroup (idGrp lt b!"h" [pkg b!"b" b!"2"])] (by simp [DocCall.Good, idGrp_built])
  obtain ⟨b, k2, -, k4⟩ := made (lt := lt) [.addGroup (idGrp lt b!"h" [pkg b!"c" b!"3"]),
    .addGroup (idGrp lt b!"i" [pkg b!"c" b!"3"])]
    (by simp [DocCall.Good, idGrp_built])
  refine ⟨a, b, _, _, h2, k2, h3, h4, k4, ?_, ?_, rfl⟩
  · refine ⟨?_, by simp [DocCall.effect, noContent], by simp [DocCall.effect, noContent]⟩
    intro g hg
    simp [DocCall.effect, noContent] at hg
    rcases hg with rfl | rfl <;> exact ⟨_, rfl⟩
  · refine ⟨?_, by simp [DocCall.effect, noContent], by simp [DocCall.effect, noContent]⟩
    intro g hg
    simp [DocCall.effect, noContent] at hg
    rcases hg with rfl | rfl <;> exact ⟨_, rfl⟩

end Comps.Props

section
open Comps.Props
#print axioms C44_calls
#print axioms C44_new
#print axioms C44_entries
#print axioms C40_name_partial
#print axioms C40_false
#print axioms C40_false_witness
#print axioms C23_ids
#print axioms C23_entries_partial
#print axioms C23_false_encoding
#print axioms C23_false_repeated
#print axioms C24_partial
#print axioms C24_false_encoding
#print axioms C24_false_null
end
