import Verif.Props.DocFilter
import Verif.Props.MDict

/-!
# Comparison, copies and parts of documents (C41, C55, C56, C57)
-/

namespace Comps.Props
open Comps Comps.Spec Comps.Obj

variable {lt : UInt8 → UInt8 → Bool}

/-! ## C41: comparison of documents -/

mutual
theorem mvalCmp_refl : ∀ x, mvalCmp x x = true
  | .one a => by simp [mvalCmp, CStr.cmp_iff]
  | .nested l => by simp [mvalCmp, mlistCmp_refl l]
theorem mlistCmp_refl : ∀ l, mlistCmp l l = true
  | [] => rfl
  | x :: xs => by simp [mlistCmp, mvalCmp_refl x, mlistCmp_refl xs]
end

/-- What two documents that compare equal have in common. -/
structure SameDoc (a b : Doc) (ca cb : DocContent) : Prop where
  encoding : a.encoding = b.encoding
  name : a.getDoctypeName = b.getDoctypeName
  sysid : a.getDoctypeSysid = b.getDoctypeSysid
  pubid : a.getDoctypePubid = b.getDoctypePubid
  groups : Alike (fun x y : Group => x.cmp y = true) ca.groups cb.groups
  categories : Alike (fun x y : Category => x.cmp y = true) ca.categories cb.categories
  environments : Alike (fun x y : Env => x.cmp y = true) ca.environments cb.environments
  langpacks : SameDict ca.langpacks cb.langpacks
  blacklist : ∀ k, (MTree.get ca.blacklist k).isSome = (MTree.get cb.blacklist k).isSome
  whiteout : ∀ k, (MTree.get ca.whiteout k).isSome = (MTree.get cb.whiteout k).isSome

theorem docCmp_eq {a b : Doc} (ia : ObjsInv lt a.objects) (ib : ObjsInv lt b.objects) :
    a.cmp lt b = .ok (objCmp CStr.cmp a.encoding b.encoding &&
      objCmp CStr.cmp a.doctypeName b.doctypeName && objCmp CStr.cmp a.doctypeSysid b.doctypeSysid &&
      objCmp CStr.cmp a.doctypePubid b.doctypePubid &&
      listCmp Category.cmp (content a).categories (content b).categories &&
      listCmp Group.cmp (content a).groups (content b).groups &&
      listCmp Env.cmp (content a).environments (content b).environments &&
      RTree.cmp PVal.cmp (content a).langpacks (content b).langpacks &&
      MTree.cmp mlistCmp (content a).blacklist (content b).blacklist &&
      MTree.cmp mlistCmp (content a).whiteout (content b).whiteout) := by
  obtain ⟨a1, x1, i1, c1, -⟩ := categoriesAt.getObj ia
  obtain ⟨a2, x2, i2, c2, -⟩ := groupsAt.getObj i1
  obtain ⟨a3, x3, i3, c3, -⟩ := environmentsAt.getObj i2
  obtain ⟨a4, x4, i4, c4, -⟩ := langpacksAt.getObj i3
  obtain ⟨a5, x5, i5, c5, -⟩ := blacklistAt.getObj i4
  obtain ⟨a6, x6, -, -, -⟩ := whiteoutAt.getObj i5
  obtain ⟨b1, y1, j1, k1, -⟩ := categoriesAt.getObj ib
  obtain ⟨b2, y2, j2, k2, -⟩ := groupsAt.getObj j1
  obtain ⟨b3, y3, j3, k3, -⟩ := environmentsAt.getObj j2
  obtain ⟨b4, y4, j4, k4, -⟩ := langpacksAt.getObj j3
  obtain ⟨b5, y5, j5, k5, -⟩ := blacklistAt.getObj j4
  obtain ⟨b6, y6, -, -, -⟩ := whiteoutAt.getObj j5
  rw [c1] at x2; rw [c2, c1] at x3; rw [c3, c2, c1] at x4; rw [c4, c3, c2, c1] at x5
  rw [c5, c4, c3, c2, c1] at x6
  rw [k1] at y2; rw [k2, k1] at y3; rw [k3, k2, k1] at y4; rw [k4, k3, k2, k1] at y5
  rw [k5, k4, k3, k2, k1] at y6
  simp only [Doc.cmp, x1, x2, x3, x4, x5, x6, y1, y2, y3, y4, y5, y6, bind, Except.bind, pure,
    Except.pure]
  cases objCmp CStr.cmp a.encoding b.encoding <;> simp only [Bool.not_true, Bool.not_false, if_true,
    Bool.false_and, Bool.true_and, Bool.false_eq_true, if_false]
  cases objCmp CStr.cmp a.doctypeName b.doctypeName <;> simp only [Bool.not_true, Bool.not_false,
    if_true, Bool.false_and, Bool.true_and, Bool.false_eq_true, if_false]
  cases objCmp CStr.cmp a.doctypeSysid b.doctypeSysid <;> simp only [Bool.not_true, Bool.not_false,
    if_true, Bool.false_and, Bool.true_and, Bool.false_eq_true, if_false]
  cases objCmp CStr.cmp a.doctypePubid b.doctypePubid <;> simp only [Bool.not_true, Bool.not_false,
    if_true, Bool.false_and, Bool.true_and, Bool.false_eq_true, if_false]
  cases listCmp Category.cmp (content a).categories (content b).categories <;>
    simp only [Bool.not_true, Bool.not_false, if_true, Bool.false_and, Bool.true_and,
      Bool.false_eq_true, if_false]
  cases listCmp Group.cmp (content a).groups (content b).groups <;>
    simp only [Bool.not_true, Bool.not_false, if_true, Bool.false_and, Bool.true_and,
      Bool.false_eq_true, if_false]
  cases listCmp Env.cmp (content a).environments (content b).environments <;>
    simp only [Bool.not_true, Bool.not_false, if_true, Bool.false_and, Bool.true_and,
      Bool.false_eq_true, if_false]
  cases RTree.cmp PVal.cmp (content a).langpacks (content b).langpacks <;>
    simp only [Bool.not_true, Bool.not_false, if_true, Bool.false_and, Bool.true_and,
      Bool.false_eq_true, if_false]
  cases MTree.cmp mlistCmp (content a).blacklist (content b).blacklist <;>
    simp only [Bool.not_true, Bool.not_false, if_true, Bool.false_and, Bool.true_and,
      Bool.false_eq_true, if_false]

/-- C41: comparing two documents never faults, and says "equal" exactly if encoding and document type
are equal, the entries compare equal one by one, the language packs are equal, and the black lists
and whiteouts have the same keys (their values are not compared, C11). -/
theorem C41_doc_meaning {a b : Doc} (ha : DocBuilt lt a) (hb : DocBuilt lt b) {ca cb : DocContent}
    (sa : Shows lt a ca) (sb : Shows lt b cb) :
    ∃ r, a.cmp lt b = .ok r ∧ (r = true ↔ SameDoc a b ca cb) := by
  have ia := docBuilt_inv ha
  have ib := docBuilt_inv hb
  rw [shows_unique sa (shows_content ia), shows_unique sb (shows_content ib)]
  have xa := contents_built ia
  have xb := contents_built ib
  refine ⟨_, docCmp_eq ia ib, ?_⟩
  simp only [Bool.and_eq_true]
  rw [objCmp_iff CStr.cmp_iff, objCmp_iff CStr.cmp_iff, objCmp_iff CStr.cmp_iff,
    objCmp_iff CStr.cmp_iff, listCmp_iff_forall2, listCmp_iff_forall2, listCmp_iff_forall2,
    dict_cmp_iff (langBuilt_inv xa.2.2.2.1).reach (langBuilt_inv xb.2.2.2.1).reach,
    MTree.cmp_keys mlistCmp_refl (MTree.mreach_ok xa.2.2.2.2.1) (MTree.mreach_ok xb.2.2.2.2.1),
    MTree.cmp_keys mlistCmp_refl (MTree.mreach_ok xa.2.2.2.2.2) (MTree.mreach_ok xb.2.2.2.2.2)]
  constructor
  · rintro ⟨⟨⟨⟨⟨⟨⟨⟨⟨h1, h2⟩, h3⟩, h4⟩, h5⟩, h6⟩, h7⟩, h8⟩, h9⟩, h10⟩
    exact ⟨h1, h2, h3, h4, h6, h5, h7, h8, h9, h10⟩
  · rintro ⟨h1, h2, h3, h4, h6, h5, h7, h8, h9, h10⟩
    exact ⟨⟨⟨⟨⟨⟨⟨⟨⟨h1, h2⟩, h3⟩, h4⟩, h5⟩, h6⟩, h7⟩, h8⟩, h9⟩, h10⟩

theorem alike_refl {α : Type} {P : α → Prop} {R : α → α → Prop} (hr : ∀ x, P x → R x x) {l : List α}
    (hl : ∀ x ∈ l, P x) : Alike R l l :=
  ⟨rfl, fun i x y h1 h2 => by rw [h1] at h2; cases h2; exact hr _ (hl _ (List.mem_of_getElem? h1))⟩

theorem alike_symm {α : Type} {P : α → Prop} {R : α → α → Prop}
    (hr : ∀ x y, P x → P y → R x y → R y x) {l l' : List α} (hl : ∀ x ∈ l, P x) (hl' : ∀ x ∈ l', P x)
    (h : Alike R l l') : Alike R l' l :=
  ⟨h.1.symm, fun i x y h1 h2 => hr _ _ (hl _ (List.mem_of_getElem? h2))
    (hl' _ (List.mem_of_getElem? h1)) (h.2 i y x h2 h1)⟩

theorem alike_trans {α : Type} {P : α → Prop} {R : α → α → Prop}
    (hr : ∀ x y z, P x → P y → P z → R x y → R y z → R x z) {l m n : List α} (hl : ∀ x ∈ l, P x)
    (hm : ∀ x ∈ m, P x) (hn : ∀ x ∈ n, P x) (h : Alike R l m) (h' : Alike R m n) : Alike R l n := by
  refine ⟨h.1.trans h'.1, fun i x z h1 h3 => ?_⟩
  have hi : i < m.length := by
    have : i < l.length := by
      rcases Nat.lt_or_ge i l.length with q | q
      · exact q
      · rw [List.getElem?_eq_none q] at h1; simp at h1
    have := h.1
    omega
  have h2 : m[i]? = some m[i] := List.getElem?_eq_getElem hi
  exact hr _ _ _ (hl _ (List.mem_of_getElem? h1)) (hm _ (List.mem_of_getElem? h2))
    (hn _ (List.mem_of_getElem? h3)) (h.2 i _ _ h1 h2) (h'.2 i _ _ h2 h3)

/-- C41: comparison of documents is reflexive, symmetric and transitive. -/
theorem C41_doc {a b c : Doc} (ha : DocBuilt lt a) (hb : DocBuilt lt b) (hc : DocBuilt lt c) :
    a.cmp lt a = .ok true ∧ (a.cmp lt b = .ok true → b.cmp lt a = .ok true) ∧
    (a.cmp lt b = .ok true → b.cmp lt c = .ok true → a.cmp lt c = .ok true) := by
  have ia := docBuilt_inv ha
  have ib := docBuilt_inv hb
  have ic := docBuilt_inv hc
  have xa := contents_built ia
  have xb := contents_built ib
  have xc := contents_built ic
  have iff : ∀ {a b : Doc}, DocBuilt lt a → DocBuilt lt b →
      (a.cmp lt b = .ok true ↔ SameDoc a b (content a) (content b)) := by
    intro a b ha hb
    obtain ⟨r, h1, h2⟩ := C41_doc_meaning ha hb (shows_content (docBuilt_inv ha))
      (shows_content (docBuilt_inv hb))
    rw [h1, ← h2]; simp
  rw [iff ha ha, iff ha hb, iff hb ha, iff hb hc, iff ha hc]
  refine ⟨?_, ?_, ?_⟩
  · exact ⟨rfl, rfl, rfl, rfl, alike_refl (fun x hx => (C41_group hx hx hx).1) xa.1,
      alike_refl (fun x hx => (C41_category hx hx hx).1) xa.2.1,
      alike_refl (fun x hx => (C41_env hx hx hx).1) xa.2.2.1, fun _ => rfl, fun _ => rfl, fun _ => rfl⟩
  · intro h
    exact ⟨h.encoding.symm, h.name.symm, h.sysid.symm, h.pubid.symm,
      alike_symm (fun x y hx hy => (C41_group hx hy hx).2.1) xa.1 xb.1 h.groups,
      alike_symm (fun x y hx hy => (C41_category hx hy hx).2.1) xa.2.1 xb.2.1 h.categories,
      alike_symm (fun x y hx hy => (C41_env hx hy hx).2.1) xa.2.2.1 xb.2.2.1 h.environments,
      fun k => (h.langpacks k).symm, fun k => (h.blacklist k).symm, fun k => (h.whiteout k).symm⟩
  · intro h h'
    exact ⟨h.encoding.trans h'.encoding, h.name.trans h'.name, h.sysid.trans h'.sysid,
      h.pubid.trans h'.pubid,
      alike_trans (fun x y z hx hy hz => (C41_group hx hy hz).2.2.1) xa.1 xb.1 xc.1 h.groups h'.groups,
      alike_trans (fun x y z hx hy hz => (C41_category hx hy hz).2.2.1) xa.2.1 xb.2.1 xc.2.1
        h.categories h'.categories,
      alike_trans (fun x y z hx hy hz => (C41_env hx hy hz).2.2.1) xa.2.2.1 xb.2.2.1 xc.2.2.1
        h.environments h'.environments,
      fun k => (h.langpacks k).trans (h'.langpacks k), fun k => (h.blacklist k).trans (h'.blacklist k),
      fun k => (h.whiteout k).trans (h'.whiteout k)⟩

/-- A copy succeeds only on an empty multi-dictionary. -/
theorem mcopy_empty {t t' : MTree CStr} (h : MReach t) (e : MTree.copy t = .ok t') (k : Bytes) :
    MTree.get t k = none ∧ MTree.get t' k = none := by
  have h' : MReach t' := .copy h e
  simp only [MTree.copy] at e
  split at e
  · rename_i hn
    simp at e
    rw [MTree.get_eq (MTree.mreach_ok h).wf, MTree.get_eq (MTree.mreach_ok h').wf]
    rw [List.isEmpty_iff] at hn
    rw [hn, ← e]
    exact ⟨rfl, rfl⟩
  · simp at e

theorem copy_mdict {a d : Doc} (ia : ObjsInv lt a.objects) (h : a.copy = .ok d) {k : Bytes}
    {v : DocVal} (hk : a.objects.get k = some v) : v.copyFault = false :=
  (copy_inv h).2.1 k v ((RTree.mem_pairs ia.wf k v).2 hk)

/-- C41: a document whose copy succeeds is equal to the copy.  (The copy fails for documents with a
black list or whiteout, `C55_false_mdict`.) -/
theorem C41_doc_copy_partial {a d : Doc} (ha : DocBuilt lt a) (h : a.copy = .ok d) :
    a.cmp lt d = .ok true := by
  have hd : DocBuilt lt d := .copy ha h
  have ia := docBuilt_inv ha
  have id' := docBuilt_inv hd
  have xa := contents_built ia
  obtain ⟨r, h1, h2⟩ := C41_doc_meaning ha hd (shows_content ia) (shows_content id')
  have hr := (copy_inv h).2.2
  have hg : ∀ k, d.objects.get k = (a.objects.get k).map DocVal.copy := by
    intro k; rw [(copy_inv h).1]; exact copy_get ia.reachable _ k
  have lst : ∀ {α : Type} {P : α → Prop} {f : α → α → Bool} {copy : α → α} {l : List α},
      (∀ x, P x → f x (copy x) = true) → (∀ x ∈ l, P x) →
      Alike (fun x y => f x y = true) l (listCopy copy l) := by
    intro α P f copy l hf hl
    refine ⟨by simp [listCopy], fun i x y e1 e2 => ?_⟩
    rw [listCopy, List.getElem?_map, e1] at e2
    cases e2
    exact hf x (hl x (List.mem_of_getElem? e1))
  rw [h1, h2.2]
  have hr' : d.encoding = a.encoding ∧ d.doctypeName = a.doctypeName ∧
      d.doctypeSysid = a.doctypeSysid ∧ d.doctypePubid = a.doctypePubid := by
    simp only [rest, Prod.mk.injEq] at hr
    exact ⟨hr.1, hr.2.1, hr.2.2.1, hr.2.2.2.1⟩
  have typed : ∀ k v, a.objects.get k = some v → k ∈ keysOf v ∧ contentOk lt v :=
    fun k v e => ia.typed.get ia.wf e
  refine ⟨hr'.1.symm, hr'.2.1.symm, hr'.2.2.1.symm, hr'.2.2.2.symm, ?_, ?_, ?_, ?_, ?_, ?_⟩
  · have : (content d).groups = listCopy Group.copy (content a).groups := by
      show view groupsSlot d = listCopy Group.copy (view groupsSlot a)
      unfold view
      rw [hg]
      cases e : a.objects.get groupsSlot.key with
      | none => rfl
      | some v =>
        cases v <;> first
          | rfl
          | exact absurd (typed _ _ e).1 (by simp only [keysOf]; decide)
    rw [this]
    exact lst (fun x hx => (C41_group hx hx hx).2.2.2) xa.1
  · have : (content d).categories = listCopy Category.copy (content a).categories := by
      show view categoriesSlot d = listCopy Category.copy (view categoriesSlot a)
      unfold view
      rw [hg]
      cases e : a.objects.get categoriesSlot.key with
      | none => rfl
      | some v =>
        cases v <;> first
          | rfl
          | exact absurd (typed _ _ e).1 (by simp only [keysOf]; decide)
    rw [this]
    exact lst (fun x hx => (C41_category hx hx hx).2.2.2) xa.2.1
  · have : (content d).environments = listCopy Env.copy (content a).environments := by
      show view environmentsSlot d = listCopy Env.copy (view environmentsSlot a)
      unfold view
      rw [hg]
      cases e : a.objects.get environmentsSlot.key with
      | none => rfl
      | some v =>
        cases v <;> first
          | rfl
          | exact absurd (typed _ _ e).1 (by simp only [keysOf]; decide)
    rw [this]
    exact lst (fun x hx => (C41_env hx hx hx).2.2.2) xa.2.2.1
  · intro k
    show (view langpacksSlot a).get k = (view langpacksSlot d).get k
    unfold view
    rw [hg]
    cases e : a.objects.get langpacksSlot.key with
    | none => rfl
    | some v =>
      cases v with
      | dict t => exact (copy_same (langBuilt_inv (typed _ _ e).2).reach k).symm
      | _ => exact absurd (typed _ _ e).1 (by simp only [keysOf]; decide)
  · intro k
    show (MTree.get (view blacklistSlot a) k).isSome = (MTree.get (view blacklistSlot d) k).isSome
    unfold view
    rw [hg]
    cases e : a.objects.get blacklistSlot.key with
    | none => rfl
    | some v =>
      cases v with
      | mdict t =>
        have hf := copy_mdict ia h e
        simp only [DocVal.copyFault] at hf
        simp only [Option.map, DocVal.copy]
        cases hc : MTree.copy t with
        | error f => simp [hc] at hf
        | ok t' =>
          have := mcopy_empty (typed _ _ e).2 hc k
          exact (congrArg Option.isSome this.1).trans (congrArg Option.isSome this.2).symm
      | _ => exact absurd (typed _ _ e).1 (by simp only [keysOf]; decide)
  · intro k
    show (MTree.get (view whiteoutSlot a) k).isSome = (MTree.get (view whiteoutSlot d) k).isSome
    unfold view
    rw [hg]
    cases e : a.objects.get whiteoutSlot.key with
    | none => rfl
    | some v =>
      cases v with
      | mdict t =>
        have hf := copy_mdict ia h e
        simp only [DocVal.copyFault] at hf
        simp only [Option.map, DocVal.copy]
        cases hc : MTree.copy t with
        | error f => simp [hc] at hf
        | ok t' =>
          have := mcopy_empty (typed _ _ e).2 hc k
          exact (congrArg Option.isSome this.1).trans (congrArg Option.isSome this.2).symm
      | _ => exact absurd (typed _ _ e).1 (by simp only [keysOf]; decide)

/-- A document with a group that can be copied. -/
example : ∃ (a d : Doc) (ca : DocContent), DocBuilt lt a ∧ Shows lt a ca ∧
    ca.groups.length = 1 ∧ a.copy = .ok d :=
  ⟨newDoc.setObj lt groupsSlot (some [idGrp lt b!"g" []]), _,
    { noContent with groups := [idGrp lt b!"g" []] },
    .call (.setGroups (some [idGrp lt b!"g" []])) (by simp [DocCall.Good, idGrp_built]) newDoc_built rfl,
    ⟨⟨_, rfl⟩, ⟨_, rfl⟩, ⟨_, rfl⟩, ⟨_, rfl⟩, ⟨_, rfl⟩, ⟨_, rfl⟩⟩, rfl, rfl⟩

/-! ## C55: a copy is a document -/

/-- C55 is false: no copy of a document can be destroyed, since the function reads a field the copy
never wrote. -/
theorem C55_false {a d : Doc} (h : a.copy = .ok d) : d.destroy = .error .uninitialised := by
  have hr := (copy_inv h).2.2
  simp only [rest, Prod.mk.injEq] at hr
  simp [Doc.destroy, hr.2.2.2.2.1]

/-- C55 is false: a document with an entry in the black list or in whiteout cannot be copied. -/
theorem C55_false_mdict {a : Doc} (ha : DocBuilt lt a) {ca : DocContent} (sa : Shows lt a ca)
    (k : Bytes) (hk : (MTree.get ca.blacklist k).isSome = true ∨
      (MTree.get ca.whiteout k).isSome = true) : a.copy = .error .typeConfusion := by
  cases h : a.copy with
  | error f =>
    unfold Doc.copy at h
    split at h
    · exact h.symm
    · simp at h
  | ok d =>
    exfalso
    have ia := docBuilt_inv ha
    rw [shows_unique sa (shows_content ia)] at hk
    have typed : ∀ k v, a.objects.get k = some v → k ∈ keysOf v ∧ contentOk lt v :=
      fun k v e => ia.typed.get ia.wf e
    have one : ∀ (s : Slot (MTree CStr)), s.proj = blacklistSlot.proj → s.empty = MTree.create →
        MTree.get (view s a) k = none := by
      intro s h1 h2
      unfold view
      cases e : a.objects.get s.key with
      | none => simp only [h2]; exact MTree.get_eq MTree.ok_create.wf k
      | some v =>
        rw [h1, h2]
        cases v with
        | mdict t =>
          have hf := copy_mdict ia h e
          simp only [DocVal.copyFault] at hf
          cases hc : MTree.copy t with
          | error f => simp [hc] at hf
          | ok t' => exact (mcopy_empty (typed _ _ e).2 hc k).1
        | _ => exact MTree.get_eq MTree.ok_create.wf k
    rcases hk with hk | hk
    · rw [show (content a).blacklist = view blacklistSlot a from rfl, one blacklistSlot rfl rfl] at hk
      simp at hk
    · rw [show (content a).whiteout = view whiteoutSlot a from rfl, one whiteoutSlot rfl rfl] at hk
      simp at hk

example : ∃ (a : Doc) (ca : DocContent), DocBuilt lt a ∧ Shows lt a ca ∧
    (MTree.get ca.blacklist b!"p").isSome = true := by
  obtain ⟨a, h2, h3, h4⟩ := made (lt := lt) [.addBlacklist b!"p" (cs b!"x86_64")]
    (by simp [DocCall.Good])
  exact ⟨a, _, h2, h4, rfl⟩

/-- C41 is false: not every document equals its copy, there is none of a document with a black list. -/
theorem C41_doc_copy_false : ∃ a : Doc, DocBuilt lt a ∧ a.copy = .error .typeConfusion := by
  obtain ⟨a, h2, h3, h4⟩ := made (lt := lt) [.addBlacklist b!"p" (cs b!"x86_64")]
    (by simp [DocCall.Good])
  exact ⟨a, h2, C55_false_mdict h2 h4 b!"p" (.inl rfl)⟩

/-- C55, part that holds: documents made by `comps_doc_create`, union, intersection and filtering
can be destroyed, and every call keeps that.  Missing: copies. -/
theorem C55_partial {a b : Doc} (ha : DocBuilt lt a) (hb : DocBuilt lt b) :
    (∀ args d, Doc.create args = .ok d → d.destroy = .ok ()) ∧
    (∀ d, a.union lt b = .ok d → d.destroy = .ok ()) ∧
    (∀ d, a.intersect lt b = .ok d → d.destroy = .ok ()) ∧
    (∀ req d, a.archFilter lt req = .ok d → d.destroy = .ok ()) ∧
    (a.destroy = .ok () → ∀ (c : DocCall) (d : Doc), c.Good lt → c.run lt a = .ok d → d.destroy = .ok ()) := by
  have ia := docBuilt_inv ha
  have ib := docBuilt_inv hb
  have mk : ∀ {d : Doc} {e : CStr}, rest d = rest (Doc.make (some e)) → d.destroy = .ok () := by
    intro d e h
    simp only [rest, Prod.mk.injEq] at h
    simp [Doc.destroy, h.2.2.2.2.1, Doc.make]
  refine ⟨?_, ?_, ?_, ?_, ?_⟩
  · intro args d h
    rcases args with _ | _ | e
    · simp [Doc.create] at h; subst h; rfl
    · simp [Doc.create] at h
    · simp [Doc.create] at h; subst h; rfl
  · intro d h
    cases he : a.encoding with
    | none => rw [C23_false_encoding ha he] at h; simp at h
    | some e =>
      obtain ⟨d', h1, -, -, h2⟩ := union_ok ia ib he
      rw [h] at h1; cases h1; exact mk h2
  · intro d h
    obtain ⟨e, lg, lk, le, he, h1, h2, h3⟩ := intersect_inv ia ib h
    obtain ⟨d', k1, -, -, k2⟩ := intersect_ok ia ib he h1 h2 h3
    rw [h] at k1; cases k1; exact mk k2
  · intro req d h
    obtain ⟨e, lg, lk, le, he, h1, h2, h3⟩ := archFilter_inv ia h
    obtain ⟨d', k1, -, -, k2⟩ := archFilter_ok ia he h1 h2 h3
    rw [h] at k1; cases k1; exact mk k2
  · intro hd c d _ h
    have : d.logSet = a.logSet := by
      have hg : ∀ {α : Type} {s : Slot α}, (·.2) <$> a.getObj lt s = .ok d → d.logSet = a.logSet := by
        intro α s h
        cases hx : a.getObj lt s with
        | error f => rw [hx] at h; simp [Functor.map, Except.map] at h
        | ok p =>
          rw [hx] at h
          simp [Functor.map, Except.map] at h
          rw [← h]
          unfold Doc.getObj at hx
          split at hx
          · simp at hx; rw [← hx]
          · split at hx
            · simp at hx; rw [← hx]
            · simp at hx
      have hadd : ∀ {α : Type} {s : Slot α} {f : α → α}, a.addObj lt s f = .ok d →
          d.logSet = a.logSet := by
        intro α s f h
        unfold Doc.addObj at h
        split at h
        · simp at h; rw [← h]; rfl
        · split at h
          · simp at h; rw [← h]; rfl
          · simp at h
      cases c <;> simp only [DocCall.run] at h
      case getGroups => exact hg h
      case getCategories => exact hg h
      case getEnvironments => exact hg h
      case getLangpacks => exact hg h
      case getBlacklist => exact hg h
      case getWhiteout => exact hg h
      case addGroup => exact hadd h
      case addCategory => exact hadd h
      case addEnvironment => exact hadd h
      case addLangpack => exact hadd h
      case addBlacklist => exact hadd h
      case addWhiteout => exact hadd h
      all_goals
        simp only [Except.ok.injEq] at h
        rw [← h]; rfl
    unfold Doc.destroy at *
    rw [this]; exact hd

/-! ## C56: setting the language -/

/-- C56 is false: in a document with a group and language packs, setting the language loses the
group. -/
theorem C56_false : ∃ (d : Doc) (c c' : DocContent), DocBuilt (· < ·) d ∧ Shows (· < ·) d c ∧
    Shows (· < ·) (d.setLang (· < ·) (some (cs b!"cs"))) c' ∧ c.groups.length = 1 ∧ c'.groups = [] := by
  have hb : GroupBuilt (· < ·) (idGrp (· < ·) b!"g" []) := idGrp_built b!"g" []
  let d1 := newDoc.setObj (· < ·) groupsSlot (some [idGrp (· < ·) b!"g" []])
  let d2 := d1.setObj (· < ·) langpacksSlot (some RTree.create)
  have h1 : DocBuilt (· < ·) d1 :=
    .call (.setGroups (some [idGrp (· < ·) b!"g" []])) (by simp [DocCall.Good, hb]) newDoc_built rfl
  have h2 : DocBuilt (· < ·) d2 :=
    .call (.setLangpacks (some RTree.create)) (by simp [DocCall.Good]; exact .create) h1 rfl
  refine ⟨d2, content d2, ⟨[], [], [], RTree.create, MTree.create, MTree.create⟩, h2,
    shows_content (docBuilt_inv h2), ?_, rfl, rfl⟩
  exact ⟨⟨_, rfl⟩, ⟨_, rfl⟩, ⟨_, rfl⟩, ⟨_, rfl⟩, ⟨_, rfl⟩, ⟨_, rfl⟩⟩

/-- Calls that have nothing to do with language packs. -/
def NoPacks : DocCall → Prop
  | .getLangpacks | .setLangpacks _ | .addLangpack .. => False
  | _ => True

/-- The dictionary of the document never had a key of which "lang" is a proper prefix. -/
def FreeOfPacks (lt : UInt8 → UInt8 → Bool) (d : Doc) : Prop :=
  ∃ S, Reach lt S d.objects ∧
    ∀ s ∈ S, s ∈ [b!"groups", b!"categories", b!"environments", b!"blacklist", b!"whiteout"]

theorem free_set {α : Type} {s : Slot α} {d : Doc} (h : FreeOfPacks lt d)
    (hs : s.key ∈ [b!"groups", b!"categories", b!"environments", b!"blacklist", b!"whiteout"])
    (v : Option DocVal) : FreeOfPacks lt { d with objects := d.objects.set lt s.key v } := by
  obtain ⟨S, h1, h2⟩ := h
  refine ⟨_, .set _ _ h1, ?_⟩
  intro x hx
  rcases List.mem_cons.1 hx with rfl | hx
  · exact hs
  · exact h2 x hx

theorem free_run {d d' : Doc} (h : FreeOfPacks lt d) (c : DocCall) (hc : NoPacks c)
    (hr : c.run lt d = .ok d') : FreeOfPacks lt d' := by
  have hg : ∀ {α : Type} {s : Slot α},
      s.key ∈ [b!"groups", b!"categories", b!"environments", b!"blacklist", b!"whiteout"] →
      (·.2) <$> d.getObj lt s = .ok d' → FreeOfPacks lt d' := by
    intro α s hs hr
    cases hx : d.getObj lt s with
    | error f => rw [hx] at hr; simp [Functor.map, Except.map] at hr
    | ok p =>
      rw [hx] at hr
      simp [Functor.map, Except.map] at hr
      rw [← hr]
      unfold Doc.getObj at hx
      split at hx
      · simp at hx; rw [← hx]; exact free_set h hs _
      · split at hx
        · simp at hx; rw [← hx]; exact h
        · simp at hx
  have hadd : ∀ {α : Type} {s : Slot α} {f : α → α},
      s.key ∈ [b!"groups", b!"categories", b!"environments", b!"blacklist", b!"whiteout"] →
      d.addObj lt s f = .ok d' → FreeOfPacks lt d' := by
    intro α s f hs hr
    unfold Doc.addObj at hr
    split at hr
    · simp at hr; rw [← hr]; exact free_set (free_set h hs _) hs _
    · split at hr
      · simp at hr; rw [← hr]; exact free_set h hs _
      · simp at hr
  have hset : ∀ {α : Type} {s : Slot α} {v : Option α},
      s.key ∈ [b!"groups", b!"categories", b!"environments", b!"blacklist", b!"whiteout"] →
      Except.ok (d.setObj lt s v) = (Except.ok d' : Res Doc) → FreeOfPacks lt d' := by
    intro α s v hs hr
    simp at hr; rw [← hr]; exact free_set h hs _
  cases c <;> simp only [DocCall.run] at hr
  case getGroups => exact hg (by decide) hr
  case getCategories => exact hg (by decide) hr
  case getEnvironments => exact hg (by decide) hr
  case getBlacklist => exact hg (by decide) hr
  case getWhiteout => exact hg (by decide) hr
  case setGroups => exact hset (by decide) hr
  case setCategories => exact hset (by decide) hr
  case setEnvironments => exact hset (by decide) hr
  case setBlacklist => exact hset (by decide) hr
  case setWhiteout => exact hset (by decide) hr
  case addGroup => exact hadd (by decide) hr
  case addCategory => exact hadd (by decide) hr
  case addEnvironment => exact hadd (by decide) hr
  case addBlacklist => exact hadd (by decide) hr
  case addWhiteout => exact hadd (by decide) hr
  case getLangpacks => exact absurd hc (by simp [NoPacks])
  case setLangpacks => exact absurd hc (by simp [NoPacks])
  case addLangpack => exact absurd hc (by simp [NoPacks])
  all_goals
    simp only [Except.ok.injEq] at hr
    rw [← hr]; exact h

/-- C56, part that holds: on a new document, after any calls that have nothing to do with language
packs, setting the language changes nothing the getters show.  Missing: documents with language
packs (`C56_false`). -/
theorem C56_partial {args : Option (Option CStr)} {d0 d : Doc} (h0 : Doc.create args = .ok d0)
    (calls : List DocCall) (hn : ∀ x ∈ calls, NoPacks x)
    (hd : runCalls lt d0 calls = .ok d) (s : Option CStr) {c : DocContent} (hs : Shows lt d c) :
    Shows lt (d.setLang lt s) c := by
  have hf : FreeOfPacks lt d := by
    have : ∀ (calls : List DocCall) (d0 : Doc), (∀ x ∈ calls, NoPacks x) → FreeOfPacks lt d0 →
        runCalls lt d0 calls = .ok d → FreeOfPacks lt d := by
      intro calls
      induction calls with
      | nil => intro d0 _ h hd; simp [runCalls, pure, Except.pure] at hd; rwa [← hd]
      | cons x xs ih =>
        intro d0 hn h hd
        simp only [runCalls, List.foldlM_cons, bind, Except.bind] at hd
        cases hx : x.run lt d0 with
        | error f => rw [hx] at hd; simp at hd
        | ok d1 =>
          rw [hx] at hd
          exact ih d1 (fun y hy => hn y (by simp [hy])) (free_run h x (hn x (by simp)) hx) hd
    refine this calls d0 hn ⟨[], ?_, by simp⟩ hd
    rcases args with _ | _ | e
    · simp [Doc.create] at h0; subst h0; exact .create
    · simp [Doc.create] at h0
    · simp [Doc.create] at h0; subst h0; exact .create
  obtain ⟨S, r1, r2⟩ := hf
  have hk : ∀ k, k ≠ b!"lang" → (d.setLang lt s).objects.get k = d.objects.get k := by
    intro k hk
    refine RTree.set_frame lt (RTree.reach_inv r1).wf (RTree.reach_inv r1).tok _ _ ?_ k hk
    rintro q ⟨b, bs, rfl⟩ ⟨x, hx, r, rfl⟩
    have : ∀ x ∈ [b!"groups", b!"categories", b!"environments", b!"blacklist", b!"whiteout"],
        ¬ b!"lang" <+: x := by decide
    exact this _ (r2 _ hx) ⟨b :: bs ++ r, by simp⟩
  have one : ∀ {α : Type} {s' : Slot α} {x : α}, s'.key ≠ b!"lang" →
      (∃ d', d.getObj lt s' = .ok (x, d')) → ∃ d', (d.setLang lt s).getObj lt s' = .ok (x, d') := by
    rintro α s' x hne ⟨d', h⟩
    unfold Doc.getObj at *
    rw [hk _ hne]
    split at h
    · simp at h; exact ⟨_, by rw [← h.1]⟩
    · split at h
      · simp at h; exact ⟨_, by simp [*]; rfl⟩
      · simp at h
  exact ⟨one (by decide) hs.groups, one (by decide) hs.categories, one (by decide) hs.environments,
    one (by decide) hs.langpacks, one (by decide) hs.blacklist, one (by decide) hs.whiteout⟩

example : ∃ (d : Doc) (calls : List DocCall), (∀ x ∈ calls, x.Good lt) ∧ (∀ x ∈ calls, NoPacks x) ∧
    calls.length = 2 ∧ runCalls lt newDoc calls = .ok d := by
  have hg : ∀ x ∈ [DocCall.addGroup (idGrp lt b!"g" []), .addBlacklist b!"p" (cs b!"x")],
      x.Good lt := by simp [DocCall.Good, idGrp_built]
  obtain ⟨d, h, -⟩ := C44_calls newDoc_built
    (C44_new (lt := lt) (args := some (some (cs b!"UTF-8"))) rfl none).1 _ hg
  exact ⟨d, _, hg, by simp [NoPacks], rfl, h⟩

/-! ## C57: document parts in union, intersection and filtering -/

/-- C57: what happens: union, intersection and filtering keep the encoding of the first document; the
document type of the result is always the default one, black list and whiteout are always empty,
and so are the language packs of an intersection or filtered document. -/
theorem C57_what {a b : Doc} (ha : DocBuilt lt a) (hb : DocBuilt lt b) (req : List CStr) {d : Doc}
    (h : a.union lt b = .ok d ∨ a.intersect lt b = .ok d ∨ a.archFilter lt req = .ok d)
    {c : DocContent} (hs : Shows lt d c) :
    d.encoding = a.encoding ∧ d.getDoctypeName = some (cs b!"comps") ∧
    d.getDoctypeSysid = some (cs b!"comps.dtd") ∧
    d.getDoctypePubid = some (cs b!"-//Red Hat, Inc.//DTD Comps info//EN") ∧
    (∀ k, MTree.get c.blacklist k = none) ∧ (∀ k, MTree.get c.whiteout k = none) ∧
    (a.union lt b = .ok d ∨ ∀ k, c.langpacks.get k = none) := by
  have ia := docBuilt_inv ha
  have ib := docBuilt_inv hb
  have mn : ∀ k, MTree.get (MTree.create : MTree CStr) k = none := fun k => MTree.get_eq MTree.ok_create.wf k
  have mk : ∀ {e : CStr}, a.encoding = some e → ObjsInv lt d.objects →
      rest d = rest (Doc.make (some e)) → (content d).blacklist = MTree.create →
      (content d).whiteout = MTree.create →
      (a.union lt b = .ok d ∨ (content d).langpacks = RTree.create) →
      d.encoding = a.encoding ∧ d.getDoctypeName = some (cs b!"comps") ∧
      d.getDoctypeSysid = some (cs b!"comps.dtd") ∧
      d.getDoctypePubid = some (cs b!"-//Red Hat, Inc.//DTD Comps info//EN") ∧
      (∀ k, MTree.get c.blacklist k = none) ∧ (∀ k, MTree.get c.whiteout k = none) ∧
      (a.union lt b = .ok d ∨ ∀ k, c.langpacks.get k = none) := by
    intro e he i h1 h2 h3 h4
    rw [shows_unique hs (shows_content i), h2, h3]
    simp only [rest, Prod.mk.injEq] at h1
    refine ⟨h1.1.trans he.symm, h1.2.1, h1.2.2.1, h1.2.2.2.1, mn, mn, ?_⟩
    rcases h4 with h4 | h4
    · exact .inl h4
    · exact .inr fun k => by rw [h4, create_get]
  rcases h with h | h | h
  · cases he : a.encoding with
    | none => rw [C23_false_encoding ha he] at h; simp at h
    | some e =>
      obtain ⟨d', h1, h2, h3, h4⟩ := union_ok ia ib he
      have h' := h
      rw [h] at h1; cases h1
      rw [← he]
      exact mk he h2 h4 (by rw [h3]; rfl) (by rw [h3]; rfl) (.inl h')
  · obtain ⟨e, lg, lk, le, he, h1, h2, h3⟩ := intersect_inv ia ib h
    obtain ⟨d', k1, k2, k3, k4⟩ := intersect_ok ia ib he h1 h2 h3
    rw [h] at k1; cases k1
    exact mk he k2 k4 (by rw [k3]) (by rw [k3]) (.inr (by rw [k3]))
  · obtain ⟨e, lg, lk, le, he, h1, h2, h3⟩ := archFilter_inv ia h
    obtain ⟨d', k1, k2, k3, k4⟩ := archFilter_ok ia he h1 h2 h3
    rw [h] at k1; cases k1
    exact mk he k2 k4 (by rw [k3]) (by rw [k3]) (.inr (by rw [k3]))

/-- C57 is false: the union of a document with itself loses its black list and its document type. -/
theorem C57_false : ∃ (a d : Doc) (ca c : DocContent), DocBuilt lt a ∧ Shows lt a ca ∧
    a.union lt a = .ok d ∧ Shows lt d c ∧ (MTree.get ca.blacklist b!"p").isSome = true ∧
    MTree.get c.blacklist b!"p" = none := by
  obtain ⟨a, h2, h3, h4⟩ := made (lt := lt) [.addBlacklist b!"p" (cs b!"x86_64")]
    (by simp [DocCall.Good])
  have ia := docBuilt_inv h2
  obtain ⟨d, k1, k2, -⟩ := union_ok ia ia h3
  exact ⟨a, d, _, _, h2, h4, k1, shows_content k2, rfl,
    (C57_what h2 h2 [] (.inl k1) (shows_content k2)).2.2.2.2.1 _⟩

end Comps.Props

section
open Comps.Props
#print axioms C41_doc_meaning
#print axioms C41_doc
#print axioms C41_doc_copy_partial
#print axioms C41_doc_copy_false
#print axioms C55_false
#print axioms C55_false_mdict
#print axioms C55_partial
#print axioms C56_false
#print axioms C56_partial
#print axioms C57_what
#print axioms C57_false
end
