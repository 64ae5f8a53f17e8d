import Verif.Lemmas.Respect
import Verif.Props.DocLaws
import Verif.Props.XmlSame
import Verif.Props.DocFilterLaws

/-!
# Operations on equal entries and documents (C172)

`cmp` is the comparison of the library (`COMPS_OBJECT_CMP`).
-/

namespace Comps.Props
open Comps Comps.Spec Comps.Obj

variable {lt : UInt8 → UInt8 → Bool}

/-! ## Parts -/

theorem sameList_getD {α : Type} {f : α → α → Bool} {a b : Option (List α)} (h : SameList f a b) :
    Rel2 (fun x y => f x y = true) (a.getD []) (b.getD []) := by
  cases a <;> cases b <;> simp only [SameList] at h
  · exact .nil
  · exact rel2_of_alike h

theorem sameList_some {α : Type} {f : α → α → Bool} {a b : Option (List α)} (h : SameList f a b)
    {l : List α} (hl : a = some l) : ∃ l', b = some l' ∧ Rel2 (fun x y => f x y = true) l l' := by
  subst hl
  cases b with
  | none => simp only [SameList] at h
  | some l' => exact ⟨l', rfl, rel2_of_alike h⟩

theorem package_names (x y : Package) (h : x.cmp y = true) : x.name = y.name :=
  ((C41_package_meaning x y).1 h).1

theorem groupid_names (x y : GroupId) (h : x.cmp y = true) : x.name = y.name :=
  ((C41_groupid_meaning x y).1 h).1

theorem byKey_congr {α κ : Type} {eqf : α → α → Bool} {key : α → κ} (hk : ByKey eqf key)
    {R : α → α → Prop} (hR : ∀ x y, R x y → key x = key y) (x x' y y' : α) (h : R x x')
    (h' : R y y') : eqf x y = eqf x' y' := by
  rw [Bool.eq_iff_iff, hk, hk, hR _ _ h, hR _ _ h']

theorem inter_congr {t1 t1' t2 t2' : RTree PVal} (h1 : Reachable lt t1) (h1' : Reachable lt t1')
    (h2 : Reachable lt t2) (h2' : Reachable lt t2') (e1 : SameDict t1 t1') (e2 : SameDict t2 t2') :
    SameDict (intersectProps lt t1 t2) (intersectProps lt t1' t2') := fun k => by
  apply Option.ext
  intro v
  rw [intersectProps_get h1 h2, intersectProps_get h1' h2', e1 k, e2 k]

theorem unique_rel {a b : List GroupId} (h : Rel2 (fun x y => x.cmp y = true) a b) :
    Rel2 (fun x y : GroupId => x.cmp y = true) (CSet.unique GroupId.cmpSet a)
      (CSet.unique GroupId.cmpSet b) :=
  h.adds (byKey_congr GroupId.cmpSet_iff groupid_names) .nil

/-! ## Entries -/

/-- Built by the library, and equal for it. -/
def EqGroup (lt : UInt8 → UInt8 → Bool) (x y : Group) : Prop :=
  GroupBuilt lt x ∧ GroupBuilt lt y ∧ x.cmp y = true
@[inherit_doc EqGroup] def EqCategory (lt : UInt8 → UInt8 → Bool) (x y : Category) : Prop :=
  CategoryBuilt lt x ∧ CategoryBuilt lt y ∧ x.cmp y = true
@[inherit_doc EqGroup] def EqEnv (lt : UInt8 → UInt8 → Bool) (x y : Env) : Prop :=
  EnvBuilt lt x ∧ EnvBuilt lt y ∧ x.cmp y = true

theorem group_union_eq (a a' b b' : Group) (h : EqGroup lt a a') (h' : EqGroup lt b b') :
    EqGroup lt (a.union lt b) (a'.union lt b') := by
  obtain ⟨ha, ha', hc⟩ := h
  obtain ⟨hb, hb', hd⟩ := h'
  obtain ⟨p1, p2, p3, p4⟩ := (C41_group_meaning ha ha').1 hc
  obtain ⟨q1, q2, q3, q4⟩ := (C41_group_meaning hb hb').1 hd
  have i := groupBuilt_inv ha; have j := groupBuilt_inv ha'
  have k := groupBuilt_inv hb; have m := groupBuilt_inv hb'
  refine ⟨.union ha hb, .union ha' hb', (C41_group_meaning (.union ha hb) (.union ha' hb')).2
    ⟨dict_congr i.props.reachable j.props.reachable k.props.reachable m.props.reachable p1 q1,
      dict_congr i.name.reach j.name.reach k.name.reach m.name.reach p2 q2,
      dict_congr i.desc.reach j.desc.reach k.desc.reach m.desc.reach p3 q3, ?_⟩⟩
  rw [packages_merge, packages_merge]
  exact ((sameList_getD p4).merge package_names (sameList_getD q4)).alike

theorem category_union_eq (a a' b b' : Category) (h : EqCategory lt a a') (h' : EqCategory lt b b') :
    EqCategory lt (a.union lt b) (a'.union lt b') := by
  obtain ⟨ha, ha', hc⟩ := h
  obtain ⟨hb, hb', hd⟩ := h'
  obtain ⟨p1, p2, p3, p4⟩ := (C41_category_meaning ha ha').1 hc
  obtain ⟨q1, q2, q3, q4⟩ := (C41_category_meaning hb hb').1 hd
  have i := categoryBuilt_inv ha; have j := categoryBuilt_inv ha'
  have k := categoryBuilt_inv hb; have m := categoryBuilt_inv hb'
  refine ⟨.union ha hb, .union ha' hb', (C41_category_meaning (.union ha hb) (.union ha' hb')).2
    ⟨dict_congr i.props.reachable j.props.reachable k.props.reachable m.props.reachable p1 q1,
      dict_congr i.name.reach j.name.reach k.name.reach m.name.reach p2 q2,
      dict_congr i.desc.reach j.desc.reach k.desc.reach m.desc.reach p3 q3, ?_⟩⟩
  rw [ids_merge, ids_merge]
  exact ((sameList_getD p4).merge groupid_names (sameList_getD q4)).alike

theorem env_union_eq (a a' b b' : Env) (h : EqEnv lt a a') (h' : EqEnv lt b b') :
    EqEnv lt (a.union lt b) (a'.union lt b') := by
  obtain ⟨ha, ha', hc⟩ := h
  obtain ⟨hb, hb', hd⟩ := h'
  obtain ⟨p1, p2, p3, p4, p5⟩ := (C41_env_meaning ha ha').1 hc
  obtain ⟨q1, q2, q3, q4, q5⟩ := (C41_env_meaning hb hb').1 hd
  have i := envBuilt_inv ha; have j := envBuilt_inv ha'
  have k := envBuilt_inv hb; have m := envBuilt_inv hb'
  refine ⟨.union ha hb, .union ha' hb', (C41_env_meaning (.union ha hb) (.union ha' hb')).2
    ⟨dict_congr i.props.reachable j.props.reachable k.props.reachable m.props.reachable p1 q1,
      dict_congr i.name.reach j.name.reach k.name.reach m.name.reach p2 q2,
      dict_congr i.desc.reach j.desc.reach k.desc.reach m.desc.reach p3 q3, ?_, ?_⟩⟩
  · rw [groups_merge, groups_merge]
    exact ((sameList_getD p4).merge groupid_names (sameList_getD q4)).alike
  · rw [options_merge, options_merge]
    exact ((sameList_getD p5).merge groupid_names (sameList_getD q5)).alike

theorem group_copy_eq (x y : Group) (h : EqGroup lt x y) : EqGroup lt x.copy y.copy := by
  obtain ⟨hx, hy, hc⟩ := h
  refine ⟨.copy hx, .copy hy, ?_⟩
  have e1 := group_same_cmp (.copy hx) hx (group_copy_same hx)
  have e2 := (C41_group hy hy hy).2.2.2
  exact (C41_group (.copy hx) hx (.copy hy)).2.2.1 e1 ((C41_group hx hy (.copy hy)).2.2.1 hc e2)

theorem category_copy_eq (x y : Category) (h : EqCategory lt x y) : EqCategory lt x.copy y.copy := by
  obtain ⟨hx, hy, hc⟩ := h
  refine ⟨.copy hx, .copy hy, ?_⟩
  have e1 := category_same_cmp (.copy hx) hx (category_copy_same hx)
  have e2 := (C41_category hy hy hy).2.2.2
  exact (C41_category (.copy hx) hx (.copy hy)).2.2.1 e1 ((C41_category hx hy (.copy hy)).2.2.1 hc e2)

theorem env_copy_eq (x y : Env) (h : EqEnv lt x y) : EqEnv lt x.copy y.copy := by
  obtain ⟨hx, hy, hc⟩ := h
  refine ⟨.copy hx, .copy hy, ?_⟩
  have e1 := env_same_cmp (.copy hx) hx (env_copy_same hx)
  have e2 := (C41_env hy hy hy).2.2.2
  exact (C41_env (.copy hx) hx (.copy hy)).2.2.1 e1 ((C41_env hx hy (.copy hy)).2.2.1 hc e2)

/-- Equal, with lists that are not NULL. -/
def FullGroup (lt : UInt8 → UInt8 → Bool) (x y : Group) : Prop :=
  EqGroup lt x y ∧ ∃ l, x.getPackageList = some l
@[inherit_doc FullGroup] def FullCategory (lt : UInt8 → UInt8 → Bool) (x y : Category) : Prop :=
  EqCategory lt x y ∧ ∃ l, x.getGroupIds = some l
@[inherit_doc FullGroup] def FullEnv (lt : UInt8 → UInt8 → Bool) (x y : Env) : Prop :=
  EqEnv lt x y ∧ (∃ l, x.getGroupList = some l) ∧ ∃ l, x.getOptionList = some l

theorem group_inter_eq (a a' b b' : Group) (h : FullGroup lt a a') (h' : FullGroup lt b b') :
    ∃ r r', a.intersect lt b = .ok r ∧ a'.intersect lt b' = .ok r' ∧ FullGroup lt r r' := by
  obtain ⟨⟨ha, ha', hc⟩, l, hl⟩ := h
  obtain ⟨⟨hb, hb', hd⟩, m, hm⟩ := h'
  obtain ⟨p1, p2, p3, p4⟩ := (C41_group_meaning ha ha').1 hc
  obtain ⟨q1, q2, q3, q4⟩ := (C41_group_meaning hb hb').1 hd
  obtain ⟨l', hl', rl⟩ := sameList_some p4 hl
  obtain ⟨m', hm', rm⟩ := sameList_some q4 hm
  have e1 := group_inter (lt := lt) a b hl hm
  have e2 := group_inter (lt := lt) a' b' hl' hm'
  have b1 := GroupBuilt.intersect ha hb e1
  have b2 := GroupBuilt.intersect ha' hb' e2
  exact ⟨_, _, e1, e2, ⟨b1, b2, (C41_group_meaning b1 b2).2
    ⟨inter_congr (groupBuilt_inv ha).props.reachable (groupBuilt_inv ha').props.reachable
      (groupBuilt_inv hb).props.reachable (groupBuilt_inv hb').props.reachable p1 q1,
      fun _ => rfl, fun _ => rfl, (rl.common package_names rm).alike⟩⟩, _, rfl⟩

theorem category_inter_eq (a a' b b' : Category) (h : FullCategory lt a a')
    (h' : FullCategory lt b b') :
    ∃ r r', a.intersect lt b = .ok r ∧ a'.intersect lt b' = .ok r' ∧ FullCategory lt r r' := by
  obtain ⟨⟨ha, ha', hc⟩, l, hl⟩ := h
  obtain ⟨⟨hb, hb', hd⟩, m, hm⟩ := h'
  obtain ⟨p1, p2, p3, p4⟩ := (C41_category_meaning ha ha').1 hc
  obtain ⟨q1, q2, q3, q4⟩ := (C41_category_meaning hb hb').1 hd
  obtain ⟨l', hl', rl⟩ := sameList_some p4 hl
  obtain ⟨m', hm', rm⟩ := sameList_some q4 hm
  have e1 := category_inter (lt := lt) a b hl hm
  have e2 := category_inter (lt := lt) a' b' hl' hm'
  have b1 := CategoryBuilt.intersect ha hb e1
  have b2 := CategoryBuilt.intersect ha' hb' e2
  exact ⟨_, _, e1, e2, ⟨b1, b2, (C41_category_meaning b1 b2).2
    ⟨inter_congr (categoryBuilt_inv ha).props.reachable (categoryBuilt_inv ha').props.reachable
      (categoryBuilt_inv hb).props.reachable (categoryBuilt_inv hb').props.reachable p1 q1,
      fun _ => rfl, fun _ => rfl, (rl.common groupid_names rm).alike⟩⟩, _, rfl⟩

theorem env_inter_eq (a a' b b' : Env) (h : FullEnv lt a a') (h' : FullEnv lt b b') :
    ∃ r r', a.intersect lt b = .ok r ∧ a'.intersect lt b' = .ok r' ∧ FullEnv lt r r' := by
  obtain ⟨⟨ha, ha', hc⟩, ⟨l, hl⟩, o, ho⟩ := h
  obtain ⟨⟨hb, hb', hd⟩, ⟨m, hm⟩, n, hn⟩ := h'
  obtain ⟨p1, p2, p3, p4, p5⟩ := (C41_env_meaning ha ha').1 hc
  obtain ⟨q1, q2, q3, q4, q5⟩ := (C41_env_meaning hb hb').1 hd
  obtain ⟨l', hl', rl⟩ := sameList_some p4 hl
  obtain ⟨m', hm', rm⟩ := sameList_some q4 hm
  obtain ⟨o', ho', ro⟩ := sameList_some p5 ho
  obtain ⟨n', hn', rn⟩ := sameList_some q5 hn
  have e1 := env_inter (lt := lt) a b hl hm ho hn
  have e2 := env_inter (lt := lt) a' b' hl' hm' ho' hn'
  have b1 := EnvBuilt.intersect ha hb e1
  have b2 := EnvBuilt.intersect ha' hb' e2
  exact ⟨_, _, e1, e2, ⟨b1, b2, (C41_env_meaning b1 b2).2
    ⟨inter_congr (envBuilt_inv ha).props.reachable (envBuilt_inv ha').props.reachable
      (envBuilt_inv hb).props.reachable (envBuilt_inv hb').props.reachable p1 q1,
      fun _ => rfl, fun _ => rfl, (unique_rel (rl.common groupid_names rm)).alike,
      (unique_rel (ro.common groupid_names rn)).alike⟩⟩, ⟨_, rfl⟩, _, rfl⟩

/-- **C172.**  If two groups compare equal to two others, their merges compare equal; the same for
categories and environments. -/
theorem C172_merge :
    (∀ {a a' b b' : Group}, GroupBuilt lt a → GroupBuilt lt a' → GroupBuilt lt b → GroupBuilt lt b' →
      a.cmp a' = true → b.cmp b' = true → (a.union lt b).cmp (a'.union lt b') = true) ∧
    (∀ {a a' b b' : Category}, CategoryBuilt lt a → CategoryBuilt lt a' → CategoryBuilt lt b →
      CategoryBuilt lt b' → a.cmp a' = true → b.cmp b' = true →
      (a.union lt b).cmp (a'.union lt b') = true) ∧
    (∀ {a a' b b' : Env}, EnvBuilt lt a → EnvBuilt lt a' → EnvBuilt lt b → EnvBuilt lt b' →
      a.cmp a' = true → b.cmp b' = true → (a.union lt b).cmp (a'.union lt b') = true) :=
  ⟨fun ha ha' hb hb' h h' => (group_union_eq _ _ _ _ ⟨ha, ha', h⟩ ⟨hb, hb', h'⟩).2.2,
    fun ha ha' hb hb' h h' => (category_union_eq _ _ _ _ ⟨ha, ha', h⟩ ⟨hb, hb', h'⟩).2.2,
    fun ha ha' hb hb' h h' => (env_union_eq _ _ _ _ ⟨ha, ha', h⟩ ⟨hb, hb', h'⟩).2.2⟩

/-- **C172.**  If two groups whose lists are not NULL compare equal to two others, their intersections
exist and compare equal; the same for categories and environments.  Missing: NULL lists, where the
intersection reads through NULL (C21). -/
theorem C172_common_partial :
    (∀ {a a' b b' : Group} {l m}, GroupBuilt lt a → GroupBuilt lt a' → GroupBuilt lt b →
      GroupBuilt lt b' → a.getPackageList = some l → b.getPackageList = some m →
      a.cmp a' = true → b.cmp b' = true →
      ∃ r r', a.intersect lt b = .ok r ∧ a'.intersect lt b' = .ok r' ∧ r.cmp r' = true) ∧
    (∀ {a a' b b' : Category} {l m}, CategoryBuilt lt a → CategoryBuilt lt a' → CategoryBuilt lt b →
      CategoryBuilt lt b' → a.getGroupIds = some l → b.getGroupIds = some m →
      a.cmp a' = true → b.cmp b' = true →
      ∃ r r', a.intersect lt b = .ok r ∧ a'.intersect lt b' = .ok r' ∧ r.cmp r' = true) ∧
    (∀ {a a' b b' : Env} {l m o n}, EnvBuilt lt a → EnvBuilt lt a' → EnvBuilt lt b →
      EnvBuilt lt b' → a.getGroupList = some l → b.getGroupList = some m →
      a.getOptionList = some o → b.getOptionList = some n →
      a.cmp a' = true → b.cmp b' = true →
      ∃ r r', a.intersect lt b = .ok r ∧ a'.intersect lt b' = .ok r' ∧ r.cmp r' = true) := by
  refine ⟨fun ha ha' hb hb' hl hm h h' => ?_, fun ha ha' hb hb' hl hm h h' => ?_,
    fun ha ha' hb hb' hl hm ho hn h h' => ?_⟩
  · obtain ⟨r, r', h1, h2, h3⟩ := group_inter_eq _ _ _ _ ⟨⟨ha, ha', h⟩, _, hl⟩ ⟨⟨hb, hb', h'⟩, _, hm⟩
    exact ⟨r, r', h1, h2, h3.1.2.2⟩
  · obtain ⟨r, r', h1, h2, h3⟩ := category_inter_eq _ _ _ _ ⟨⟨ha, ha', h⟩, _, hl⟩
      ⟨⟨hb, hb', h'⟩, _, hm⟩
    exact ⟨r, r', h1, h2, h3.1.2.2⟩
  · obtain ⟨r, r', h1, h2, h3⟩ := env_inter_eq _ _ _ _ ⟨⟨ha, ha', h⟩, ⟨_, hl⟩, _, ho⟩
      ⟨⟨hb, hb', h'⟩, ⟨_, hm⟩, _, hn⟩
    exact ⟨r, r', h1, h2, h3.1.2.2⟩

/-! ## Documents -/

theorem group_ids (x y : Group) (h : EqGroup lt x y) : x.props.get b!"id" = y.props.get b!"id" :=
  ((C41_group_meaning h.1 h.2.1).1 h.2.2).1 _
theorem category_ids (x y : Category) (h : EqCategory lt x y) :
    x.props.get b!"id" = y.props.get b!"id" :=
  ((C41_category_meaning h.1 h.2.1).1 h.2.2).1 _
theorem env_ids (x y : Env) (h : EqEnv lt x y) : x.props.get b!"id" = y.props.get b!"id" :=
  ((C41_env_meaning h.1 h.2.1).1 h.2.2).1 _

theorem rel2_of {α : Type} {R S : α → α → Prop} {P : α → Prop} {a b : List α} (h : Alike R a b)
    (ha : ∀ x ∈ a, P x) (hb : ∀ x ∈ b, P x) (hi : ∀ x y, P x → P y → R x y → S x y) : Rel2 S a b :=
  rel2_of_alike (alike_imp h ha hb hi)

theorem Rel2.alike' {α : Type} {R S : α → α → Prop} {a b : List α} (h : Rel2 R a b)
    (hi : ∀ x y, R x y → S x y) : Alike S a b :=
  ⟨h.alike.1, fun i x y hx hy => hi _ _ (h.alike.2 i x y hx hy)⟩

/-- Two documents compare equal: what their contents have in common. -/
theorem doc_eq {a a' : Doc} (ha : DocBuilt lt a) (ha' : DocBuilt lt a') (h : a.cmp lt a' = .ok true) :
    a.encoding = a'.encoding ∧ Rel2 (EqGroup lt) (content a).groups (content a').groups ∧
    Rel2 (EqCategory lt) (content a).categories (content a').categories ∧
    Rel2 (EqEnv lt) (content a).environments (content a').environments ∧
    SameDict (content a).langpacks (content a').langpacks := by
  have i := docBuilt_inv ha; have i' := docBuilt_inv ha'
  obtain ⟨r, h1, h2⟩ := C41_doc_meaning ha ha' (shows_content i) (shows_content i')
  rw [h1] at h
  cases h
  have s := h2.1 rfl
  have x := contents_built i; have x' := contents_built i'
  exact ⟨s.encoding, rel2_of s.groups x.1 x'.1 fun _ _ p q e => ⟨p, q, e⟩,
    rel2_of s.categories x.2.1 x'.2.1 fun _ _ p q e => ⟨p, q, e⟩,
    rel2_of s.environments x.2.2.1 x'.2.2.1 fun _ _ p q e => ⟨p, q, e⟩, s.langpacks⟩

/-- **C172.**  If two documents compare equal to two others, and the first has an encoding, then
merging works for both pairs and the results compare equal.  Missing: documents without an encoding
(`C23_false_encoding`). -/
theorem C172_merge_docs_partial {a a' b b' : Doc} (ha : DocBuilt lt a) (ha' : DocBuilt lt a')
    (hb : DocBuilt lt b) (hb' : DocBuilt lt b') {e : CStr} (he : a.encoding = some e)
    (h : a.cmp lt a' = .ok true) (h' : b.cmp lt b' = .ok true) :
    ∃ u u', a.union lt b = .ok u ∧ a'.union lt b' = .ok u' ∧ u.cmp lt u' = .ok true := by
  have ia := docBuilt_inv ha; have ia' := docBuilt_inv ha'
  have ib := docBuilt_inv hb; have ib' := docBuilt_inv hb'
  obtain ⟨p0, p1, p2, p3, p4⟩ := doc_eq ha ha' h
  obtain ⟨-, q1, q2, q3, q4⟩ := doc_eq hb hb' h'
  obtain ⟨u, h1, i1, c1, r1⟩ := union_ok ia ib he
  obtain ⟨u', h2, i2, c2, r2⟩ := union_ok ia' ib' (p0 ▸ he)
  refine ⟨u, u', h1, h2, ?_⟩
  obtain ⟨x, hx, hx'⟩ := C41_doc_meaning (.union ha hb h1) (.union ha' hb' h2) (shows_content i1)
    (shows_content i2)
  rw [hx]
  congr 1
  have hr : rest u = rest u' := r1.trans r2.symm
  simp only [rest, Prod.mk.injEq] at hr
  have xa := contents_built ia; have xa' := contents_built ia'
  have xb := contents_built ib; have xb' := contents_built ib'
  refine hx'.2 ⟨hr.1, hr.2.1, hr.2.2.1, hr.2.2.2.1, ?_, ?_, ?_, ?_, ?_, ?_⟩ <;> rw [c1, c2]
  · exact Rel2.alike' (p1.docUnionList (byKey_congr Group.idcmp_iff group_ids) group_copy_eq
      group_union_eq q1) fun _ _ z => z.2.2
  · exact Rel2.alike' (p2.docUnionList (byKey_congr Category.idcmp_iff category_ids) category_copy_eq
      category_union_eq q2) fun _ _ z => z.2.2
  · exact Rel2.alike' (p3.docUnionList (byKey_congr Env.idcmp_iff env_ids) env_copy_eq
      env_union_eq q3) fun _ _ z => z.2.2
  · exact dict_congr (langBuilt_inv xa.2.2.2.1).reach (langBuilt_inv xa'.2.2.2.1).reach
      (langBuilt_inv xb.2.2.2.1).reach (langBuilt_inv xb'.2.2.2.1).reach p4 q4
  · exact fun _ => rfl
  · exact fun _ => rfl

theorem rel2_full {α : Type} {R : α → α → Prop} {P : α → Prop} {a b : List α} (h : Rel2 R a b)
    (ha : ∀ x ∈ a, P x) : Rel2 (fun x y => R x y ∧ P x) a b := by
  induction h with
  | nil => exact .nil
  | cons h _ ih => exact .cons ⟨h, ha _ (by simp)⟩ (ih fun x hx => ha x (by simp [hx]))

/-- **C172.**  The same for intersecting documents without NULL lists.  Missing: NULL lists, where the
intersection reads through NULL (`C24_false_null`), and documents without an encoding
(`C24_false_encoding`). -/
theorem C172_common_docs_partial {a a' b b' : Doc} (ha : DocBuilt lt a) (ha' : DocBuilt lt a')
    (hb : DocBuilt lt b) (hb' : DocBuilt lt b') {e : CStr} (he : a.encoding = some e)
    {ca cb : DocContent} (sa : Shows lt a ca) (sb : Shows lt b cb) (fa : FullLists ca)
    (fb : FullLists cb) (h : a.cmp lt a' = .ok true) (h' : b.cmp lt b' = .ok true) :
    ∃ u u', a.intersect lt b = .ok u ∧ a'.intersect lt b' = .ok u' ∧ u.cmp lt u' = .ok true := by
  have ia := docBuilt_inv ha; have ia' := docBuilt_inv ha'
  have ib := docBuilt_inv hb; have ib' := docBuilt_inv hb'
  rw [shows_unique sa (shows_content ia)] at fa
  rw [shows_unique sb (shows_content ib)] at fb
  obtain ⟨p0, p1, p2, p3, p4⟩ := doc_eq ha ha' h
  obtain ⟨-, q1, q2, q3, q4⟩ := doc_eq hb hb' h'
  obtain ⟨lg, lg', g1, g2, g3⟩ := (rel2_full p1 fa.1).docIntersectList (R := FullGroup lt)
    (byKey_congr Group.idcmp_iff fun x y z => group_ids x y z.1) group_inter_eq (rel2_full q1 fb.1)
  obtain ⟨lk, lk', k1, k2, k3⟩ := (rel2_full p2 fa.2.1).docIntersectList (R := FullCategory lt)
    (byKey_congr Category.idcmp_iff fun x y z => category_ids x y z.1) category_inter_eq
    (rel2_full q2 fb.2.1)
  obtain ⟨le, le', e1, e2, e3⟩ := (rel2_full p3 fa.2.2).docIntersectList (R := FullEnv lt)
    (byKey_congr Env.idcmp_iff fun x y z => env_ids x y z.1) env_inter_eq (rel2_full q3 fb.2.2)
  obtain ⟨u, h1, i1, c1, r1⟩ := intersect_ok ia ib he g1 k1 e1
  obtain ⟨u', h2, i2, c2, r2⟩ := intersect_ok ia' ib' (p0 ▸ he) g2 k2 e2
  refine ⟨u, u', h1, h2, ?_⟩
  obtain ⟨x, hx, hx'⟩ := C41_doc_meaning (.intersect ha hb h1) (.intersect ha' hb' h2)
    (shows_content i1) (shows_content i2)
  rw [hx]
  congr 1
  have hr : rest u = rest u' := r1.trans r2.symm
  simp only [rest, Prod.mk.injEq] at hr
  refine hx'.2 ⟨hr.1, hr.2.1, hr.2.2.1, hr.2.2.2.1, ?_, ?_, ?_, ?_, ?_, ?_⟩ <;> rw [c1, c2]
  · exact Rel2.alike' g3 fun _ _ z => z.1.2.2
  · exact Rel2.alike' k3 fun _ _ z => z.1.2.2
  · exact Rel2.alike' e3 fun _ _ z => z.1.2.2
  · exact fun _ => rfl
  · exact fun _ => rfl
  · exact fun _ => rfl

/-- A package for these architectures. -/
def forArches (l : List CStr) : Package := { pkg b!"a" b!"1" with arches := some l }

/-- C172 is false for filtering by architecture: two documents that compare equal, since the
architectures of packages are not compared, are filtered to documents that do not. -/
theorem C172_false : ∃ (a b ra rb : Doc) (req : List CStr), DocBuilt lt a ∧ DocBuilt lt b ∧
    a.cmp lt b = .ok true ∧ a.archFilter lt req = .ok ra ∧ b.archFilter lt req = .ok rb ∧
    ra.cmp lt rb = .ok false := by
  have hc : (grp [forArches [cs b!"x86_64"]]).cmp (grp [forArches [cs b!"ppc"]]) = true := by decide
  have ga := grp_built (lt := lt) [forArches [cs b!"x86_64"]]
  have gb := grp_built (lt := lt) [forArches [cs b!"ppc"]]
  have ha := oneGroup_built ga
  have hb := oneGroup_built gb
  have ia := docBuilt_inv ha; have ib := docBuilt_inv hb
  have sa := shows_unique (shows_content ia) (oneGroup_shows _)
  have sb := shows_unique (shows_content ib) (oneGroup_shows _)
  obtain ⟨ra, h1, i1, c1, r1⟩ := archFilter_ok (req := [cs b!"x86_64"]) (e := cs b!"UTF-8") ia rfl
    (lg := [leftGroup [cs b!"x86_64"] (grp [forArches [cs b!"x86_64"]])]) (lk := []) (le := [])
    (by rw [sa]; rfl) (by rw [sa]; rfl) (by rw [sa]; rfl)
  obtain ⟨rb, h2, i2, c2, r2⟩ := archFilter_ok (req := [cs b!"x86_64"]) (e := cs b!"UTF-8") ib rfl
    (lg := [leftGroup [cs b!"x86_64"] (grp [forArches [cs b!"ppc"]])]) (lk := []) (le := [])
    (by rw [sb]; rfl) (by rw [sb]; rfl) (by rw [sb]; rfl)
  refine ⟨_, _, ra, rb, _, ha, hb, oneGroup_cmp ga gb hc, h1, h2, ?_⟩
  have ba := DocBuilt.archFilter _ ha h1
  have bb := DocBuilt.archFilter _ hb h2
  obtain ⟨x, hx, hx'⟩ := C41_doc_meaning ba bb (shows_content i1) (shows_content i2)
  rw [hx]
  cases x with
  | false => rfl
  | true =>
    have s := (hx'.1 rfl).groups
    rw [c1, c2] at s
    exact absurd (s.2 0 _ _ rfl rfl) (by decide)

/-- Packages that compare equal and are not the same, in groups that merge and intersect to more than
nothing. -/
example :
    let a := grp [forArches [cs b!"x86_64"], pkg b!"b" b!"2"]
    let a' := grp [forArches [cs b!"ppc"], pkg b!"b" b!"2"]
    let b := grp [pkg b!"b" b!"3", pkg b!"c" b!"4"]
    a.cmp a' = true ∧ (a.union (· < ·) b).getPackageList ≠ (a'.union (· < ·) b).getPackageList ∧
    (a.union (· < ·) b).cmp (a'.union (· < ·) b) = true ∧
    ((a.intersect (· < ·) b).toOption.bind Group.getPackageList) = some [pkg b!"b" b!"3"] := by
  refine ⟨by decide, by decide, by decide, by decide⟩

/-- Two documents that compare equal and differ, and meet the conditions of the theorems on documents. -/
example : ∃ (a a' : Doc) (ca ca' : DocContent), DocBuilt lt a ∧ DocBuilt lt a' ∧
    a.encoding = some (cs b!"UTF-8") ∧ Shows lt a ca ∧ Shows lt a' ca' ∧ FullLists ca ∧
    a.cmp lt a' = .ok true ∧ ca.groups.map Group.getPackageList ≠ ca'.groups.map Group.getPackageList :=
  ⟨_, _, _, _, oneGroup_built (grp_built [forArches [cs b!"x86_64"]]),
    oneGroup_built (grp_built [forArches [cs b!"ppc"]]), rfl, oneGroup_shows _, oneGroup_shows _,
    ⟨fun g hg => by rw [List.mem_singleton.1 hg]; exact ⟨_, rfl⟩, nofun, nofun⟩,
    oneGroup_cmp (grp_built _) (grp_built _) (by decide), by decide⟩

end Comps.Props
