import Verif.Lemmas.Obj
import Verif.Spec.Built

/-! # Lemmas: objects reachable through the API -/

namespace Comps.Obj
open Comps Comps.Spec Comps.CSet
variable {lt : UInt8 → UInt8 → Bool}

/-- Every value of the dictionary satisfies `R`. -/
def AllV {V : Type} (R : Bytes → V → Prop) (t : RTree V) : Prop :=
  RTree.AllN (fun k d => ∀ v, d = some v → R k v) [] t.subnodes

theorem AllV.get {V : Type} {R : Bytes → V → Prop} {t : RTree V} (w : RTree.WF t.subnodes)
    (h : AllV R t) {k : Bytes} {v : V} (hg : t.get k = some v) : R k v := by
  have := (RTree.mem_pairs w k v).2 hg
  rw [RTree.pairs_eq] at this
  exact RTree.alln_preL h _ this v rfl

theorem AllV.pairs {V : Type} {R : Bytes → V → Prop} {t : RTree V}
    (h : AllV R t) {e : Bytes × V} (he : e ∈ t.pairs) : R e.1 e.2 := by
  rw [RTree.pairs_eq] at he
  exact RTree.alln_preL h _ he e.2 rfl

theorem AllV.create {V : Type} {R : Bytes → V → Prop} : AllV R (RTree.create : RTree V) :=
  RTree.alln_empty _ _

theorem AllV.set {V : Type} {R : Bytes → V → Prop} {t : RTree V} (w : RTree.WF t.subnodes)
    (h : AllV R t) (k : Bytes) (v : Option V) (hv : ∀ x, v = some x → R k x) :
    AllV R (t.set lt k v) := by
  refine RTree.setLoop_alln lt v _ _ k [] _ w h hv ?_
  intro p a b as bs d e hab hq v hv
  cases hv

theorem AllV.copy {V : Type} {R : Bytes → V → Prop} {t : RTree V} (f : V → V)
    (hf : ∀ k v, R k v → R k (f v)) (h : AllV R t) : AllV R (t.copy f) := by
  unfold AllV
  rw [RTree.copy_subnodes]
  refine RTree.cloneHS_alln f _ ?_ h
  intro b d hd v hv
  cases d with
  | none => simp at hv
  | some x => simp at hv; subst hv; exact hf _ _ (hd x rfl)

theorem AllV.clone {V : Type} {R : Bytes → V → Prop} {t : RTree V} (f : V → V)
    (hf : ∀ k v, R k v → R k (f v)) (h : AllV R t) : AllV R (t.clone f) := by
  unfold AllV
  rw [RTree.clone_subnodes]
  refine RTree.cloneHS_alln f _ ?_ h
  intro b d hd v hv
  cases d with
  | none => simp at hv
  | some x => simp at hv; subst hv; exact hf _ _ (hd x rfl)

theorem AllV.setAll {V : Type} {R : Bytes → V → Prop} (calls : List (Bytes × Option V))
    {t : RTree V} (w : RTree.WF t.subnodes)
    (h : AllV R t) (hc : ∀ e ∈ calls, ∀ v, e.2 = some v → R e.1 v) :
    AllV R (RTree.setAll lt t calls) := by
  induction calls generalizing t with
  | nil => exact h
  | cons e es ih =>
    exact ih (RTree.set_wf lt w e.1 e.2) (h.set w e.1 e.2 (hc e (by simp)))
      fun e' he' => hc e' (by simp [he'])

theorem AllV.union {V : Type} {R : Bytes → V → Prop} {t t' : RTree V} (f : V → V)
    (hf : ∀ k v, R k v → R k (f v)) (w : RTree.WF t.subnodes)
    (h : AllV R t) (h' : AllV R t') : AllV R (t.union lt f t') := by
  rw [RTree.union, RTree.unite_eq]
  refine AllV.setAll _ (by rw [RTree.clone_subnodes]; exact RTree.cloneHS_wf f w) (h.clone f hf) ?_
  intro e he v hv
  obtain ⟨e', he', rfl⟩ := List.mem_map.1 he
  cases hv
  exact h'.pairs ((RTree.uniteWrites_perm t').mem_iff.1 he')

theorem AllV.intersect {R : Bytes → PVal → Prop} (p1 : RTree PVal) {p2 : RTree PVal}
    (h : AllV R p2) : AllV R (intersectProps lt p1 p2) := by
  rw [intersectProps_eq]
  refine AllV.setAll _ RTree.wf_empty .create ?_
  intro e he v hv
  obtain ⟨e', he', rfl⟩ := List.mem_map.1 he
  cases hv
  exact h.pairs (List.mem_filter.1 he').1

/-- The property names. -/
def propKeys : List Bytes := propKinds.map (·.1)

theorem propKeys_free : ∀ a ∈ propKeys, ∀ b ∈ propKeys, a <+: b → a = b := by decide

theorem propKeys_ne : ∀ a ∈ propKeys, a ≠ [] := by decide

theorem propKeys_proper (a : Bytes) (ha : a ∈ propKeys) (b : Bytes) (hb : b ∈ propKeys) :
    ¬ ProperPrefix a b := by
  rintro ⟨x, xs, rfl⟩
  have := propKeys_free a ha _ hb ⟨_, rfl⟩
  have := congrArg List.length this
  simp at this

/-- Invariant of a property dictionary. -/
structure PropInv (lt : UInt8 → UInt8 → Bool) (t : RTree PVal) : Prop where
  reach : ∃ S, Reach lt S t ∧ ∀ s ∈ S, s ∈ propKeys
  typed : AllV (fun k v => (k, kind v) ∈ propKinds) t

/-- Invariant of a language dictionary. -/
structure LangInv (lt : UInt8 → UInt8 → Bool) (t : RTree PVal) : Prop where
  reach : Reachable lt t
  typed : AllV (fun _ v => kind v = 0) t

theorem PropInv.reachable {t : RTree PVal} (h : PropInv lt t) : Reachable lt t := by
  obtain ⟨S, h, -⟩ := h.reach; exact ⟨S, h⟩

theorem PropInv.wf {t : RTree PVal} (h : PropInv lt t) : RTree.WF t.subnodes := h.reachable.wf
theorem LangInv.wf {t : RTree PVal} (h : LangInv lt t) : RTree.WF t.subnodes := h.reach.wf

theorem PropInv.create : PropInv lt RTree.create := ⟨⟨[], .create, by simp⟩, .create⟩
theorem LangInv.create : LangInv lt RTree.create := ⟨.create, .create⟩

theorem PropInv.set {t : RTree PVal} (h : PropInv lt t) (k : Bytes) (hk : k ∈ propKeys)
    (v : Option PVal) (hv : ∀ x, v = some x → (k, kind x) ∈ propKinds) :
    PropInv lt (t.set lt k v) := by
  refine ⟨?_, h.typed.set h.wf k v hv⟩
  obtain ⟨S, hr, hS⟩ := h.reach
  refine ⟨_, .set k v hr, ?_⟩
  intro s hs
  rcases List.mem_cons.1 hs with rfl | hs
  · exact hk
  · exact hS s hs

theorem StrProp.key_kind (p : StrProp) : (p.key, 0) ∈ propKinds := by cases p <;> decide
theorem NumProp.key_kind (p : NumProp) : (p.key, 1) ∈ propKinds := by cases p <;> decide
theorem StrProp.key_mem (p : StrProp) : p.key ∈ propKeys := List.mem_map.2 ⟨_, p.key_kind, rfl⟩
theorem NumProp.key_mem (p : NumProp) : p.key ∈ propKeys := List.mem_map.2 ⟨_, p.key_kind, rfl⟩
theorem arches_mem : b!"arches" ∈ propKeys := by decide

/-- The write a setter call makes. -/
def PropCall.write : PropCall → Option (Bytes × Option PVal)
  | .str p (some s) => some (p.key, some (.str ⟨some s⟩))
  | .str _ none => none
  | .num p n u => some (p.key, if u then none else some (.num n))
  | .arches l => some (b!"arches", l.map .list)

theorem PropCall.run_eq (c : PropCall) (t : RTree PVal) :
    c.run lt t = match c.write with
      | some w => t.set lt w.1 w.2
      | none => t := by
  cases c with
  | str p s => cases s <;> rfl
  | num p n u => cases u <;> rfl
  | arches l => rfl

theorem PropCall.write_mem (c : PropCall) (w : Bytes × Option PVal) (h : c.write = some w) :
    w.1 ∈ propKeys ∧ ∀ x, w.2 = some x → (w.1, kind x) ∈ propKinds := by
  cases c with
  | str p s =>
    cases s with
    | none => simp [PropCall.write] at h
    | some s =>
      simp only [PropCall.write, Option.some.injEq] at h; subst h
      exact ⟨p.key_mem, fun x hx => by cases hx; exact p.key_kind⟩
  | num p n u =>
    simp only [PropCall.write, Option.some.injEq] at h; subst h
    refine ⟨p.key_mem, fun x hx => ?_⟩
    cases u
    · simp at hx; subst hx; exact p.key_kind
    · simp at hx
  | arches l =>
    simp only [PropCall.write, Option.some.injEq] at h; subst h
    refine ⟨arches_mem, fun x hx => ?_⟩
    cases l
    · simp at hx
    · simp at hx; subst hx; show (b!"arches", 2) ∈ propKinds; decide

theorem PropInv.run {t : RTree PVal} (h : PropInv lt t) (c : PropCall) : PropInv lt (c.run lt t) := by
  rw [PropCall.run_eq]
  cases hw : c.write with
  | none => exact h
  | some w =>
    have := c.write_mem w hw
    exact h.set _ this.1 _ this.2

theorem kind_copy (v : PVal) : kind v.copy = kind v := by rw [PVal.copy_eq]

theorem PropInv.copy {t : RTree PVal} (h : PropInv lt t) : PropInv lt (t.copy PVal.copy) := by
  refine ⟨?_, h.typed.copy _ fun k v => by rw [kind_copy]; exact id⟩
  obtain ⟨S, hr, hS⟩ := h.reach
  exact ⟨_, .copy _ hr, hS⟩

theorem LangInv.copy {t : RTree PVal} (h : LangInv lt t) : LangInv lt (t.copy PVal.copy) :=
  ⟨h.reach.copy _, h.typed.copy _ fun k v => by rw [kind_copy]; exact id⟩

theorem LangInv.set {t : RTree PVal} (h : LangInv lt t) (k : Bytes) (s : CStr) :
    LangInv lt (t.set lt k (some (.str s))) :=
  ⟨h.reach.set _ _, h.typed.set h.wf _ _ fun x hx => by cases hx; rfl⟩

theorem PropInv.union {t t' : RTree PVal} (h : PropInv lt t) (h' : PropInv lt t') :
    PropInv lt (t.union lt PVal.copy t') := by
  refine ⟨?_, h.typed.union _ (fun k v => by rw [kind_copy]; exact id) h.wf h'.typed⟩
  obtain ⟨S, hr, hS⟩ := h.reach
  obtain ⟨S', hr', hS'⟩ := h'.reach
  refine ⟨_, .unite (.clone _ hr) hr', ?_⟩
  intro s hs
  rcases List.mem_append.1 hs with hs | hs
  · exact hS' s hs
  · exact hS s hs

theorem LangInv.union {t t' : RTree PVal} (h : LangInv lt t) (h' : LangInv lt t') :
    LangInv lt (t.union lt PVal.copy t') :=
  ⟨h.reach.union h'.reach _, h.typed.union _ (fun k v => by rw [kind_copy]; exact id) h.wf h'.typed⟩

theorem reach_setAll_keys (K : List Bytes) (calls : List (Bytes × Option PVal))
    (hc : ∀ e ∈ calls, e.1 ∈ K) {S : List Bytes} {t : RTree PVal} (h : Reach lt S t)
    (hS : ∀ s ∈ S, s ∈ K) : ∃ S', Reach lt S' (RTree.setAll lt t calls) ∧ ∀ s ∈ S', s ∈ K := by
  induction calls generalizing S t with
  | nil => exact ⟨S, h, hS⟩
  | cons e es ih =>
    refine ih (fun e' he' => hc e' (by simp [he'])) (.set e.1 e.2 h) ?_
    intro s hs
    rcases List.mem_cons.1 hs with rfl | hs
    · exact hc e (by simp)
    · exact hS s hs

theorem PropInv.intersect (t : RTree PVal) {t' : RTree PVal} (h' : PropInv lt t') :
    PropInv lt (intersectProps lt t t') := by
  refine ⟨?_, h'.typed.intersect t⟩
  rw [intersectProps_eq]
  refine reach_setAll_keys _ _ ?_ .create (by simp)
  intro e he
  obtain ⟨e', he', rfl⟩ := List.mem_map.1 he
  exact List.mem_map.2 ⟨_, h'.typed.pairs (List.mem_filter.1 he').1, rfl⟩

/-- A write to a property leaves the others alone. -/
theorem PropInv.set_get {t : RTree PVal} (h : PropInv lt t) (k : Bytes) (hk : k ∈ propKeys)
    (v : Option PVal) (k' : Bytes) : (t.set lt k v).get k' = if k' = k then v else t.get k' := by
  by_cases e : k' = k
  · subst e
    rw [if_pos rfl, RTree.set_get lt h.wf k' (propKeys_ne _ hk)]
  · rw [if_neg e]
    obtain ⟨S, hr, hS⟩ := h.reach
    refine RTree.set_frame lt h.wf (RTree.reach_inv hr).tok k v ?_ k' e
    rintro q ⟨x, xs, rfl⟩ ⟨s, hs, r, hsr⟩
    exact propKeys_proper k hk s (hS s hs) ⟨x, xs ++ r, by rw [← hsr]; simp⟩

theorem PropInv.run_get {t : RTree PVal} (h : PropInv lt t) (c : PropCall) (k : Bytes) :
    (c.run lt t).get k = match c.write with
      | some w => if k = w.1 then w.2 else t.get k
      | none => t.get k := by
  rw [PropCall.run_eq]
  cases hw : c.write with
  | none => rfl
  | some w => exact h.set_get _ (c.write_mem w hw).1 _ _

/-- Values of two dictionaries under one name have one type. -/
theorem prop_kinds {t t' : RTree PVal} (h : PropInv lt t) (h' : PropInv lt t') {k : Bytes}
    {v v' : PVal} (e : t.get k = some v) (e' : t'.get k = some v') : kind v = kind v' := by
  have a := h.typed.get h.wf e
  have b := h'.typed.get h'.wf e'
  have : ∀ x ∈ propKinds, ∀ y ∈ propKinds, x.1 = y.1 → x.2 = y.2 := by decide
  exact this _ a _ b rfl

theorem lang_kinds {t t' : RTree PVal} (h : LangInv lt t) (h' : LangInv lt t') {k : Bytes}
    {v v' : PVal} (e : t.get k = some v) (e' : t'.get k = some v') : kind v = kind v' :=
  (h.typed.get h.wf e).trans (h'.typed.get h'.wf e').symm

theorem cmpR_ok {v v' : PVal} (h : kind v = kind v') : v.cmpR v' = .ok (decide (v = v')) := by
  have hb : ∀ b : Bool, ∀ p : Prop, [Decidable p] → (b = true ↔ p) → b = decide p := by
    intro b p _ h; cases b <;> simp_all
  cases v <;> cases v' <;> simp [kind] at h <;> simp only [PVal.cmpR, Except.ok.injEq] <;>
    apply hb <;> simp [CStr.cmp_iff, listCmp_iff CStr.cmp_iff]

/-- The three dictionaries of a reachable object. -/
structure DictsInv (lt : UInt8 → UInt8 → Bool) (props nl dl : RTree PVal) : Prop where
  props : PropInv lt props
  name : LangInv lt nl
  desc : LangInv lt dl

theorem groupBuilt_inv {g : Group} (h : GroupBuilt lt g) :
    DictsInv lt g.props g.nameByLang g.descByLang := by
  induction h with
  | create => exact ⟨.create, .create, .create⟩
  | prop c _ ih => exact ⟨ih.props.run c, ih.name, ih.desc⟩
  | nameLang k s _ ih => exact ⟨ih.props, ih.name.set k s, ih.desc⟩
  | descLang k s _ ih => exact ⟨ih.props, ih.name, ih.desc.set k s⟩
  | @add g p _ ih => unfold Group.addPackage; split <;> exact ih
  | setPackages l _ ih => exact ih
  | copy _ ih => exact ⟨ih.props.copy, ih.name.copy, ih.desc.copy⟩
  | union _ _ ih ih' => exact ⟨ih.props.union ih'.props, ih.name.union ih'.name, ih.desc.union ih'.desc⟩
  | @intersect g h r _ _ e _ ih' =>
    simp only [Group.intersect, bind, Except.bind] at e
    split at e
    · simp at e
    · simp [pure, Except.pure] at e; subst e
      exact ⟨.intersect _ ih'.props, .create, .create⟩
  | @archFilter g r l _ e ih =>
    simp only [Group.archFilter] at e
    split at e
    · simp at e
    · simp at e; subst e; exact ⟨ih.props.copy, ih.name.copy, ih.desc.copy⟩

theorem categoryBuilt_inv {g : Category} (h : CategoryBuilt lt g) :
    DictsInv lt g.props g.nameByLang g.descByLang := by
  induction h with
  | create => exact ⟨.create, .create, .create⟩
  | prop c _ ih => exact ⟨ih.props.run c, ih.name, ih.desc⟩
  | nameLang k s _ ih => exact ⟨ih.props, ih.name.set k s, ih.desc⟩
  | descLang k s _ ih => exact ⟨ih.props, ih.name, ih.desc.set k s⟩
  | @add g p _ ih => unfold Category.addGroupId; split <;> exact ih
  | setIds l _ ih => exact ih
  | copy _ ih => exact ⟨ih.props.copy, ih.name.copy, ih.desc.copy⟩
  | union _ _ ih ih' => exact ⟨ih.props.union ih'.props, ih.name.union ih'.name, ih.desc.union ih'.desc⟩
  | @intersect g h r _ _ e _ ih' =>
    simp only [Category.intersect, bind, Except.bind] at e
    split at e
    · simp at e
    · simp [pure, Except.pure] at e; subst e
      exact ⟨.intersect _ ih'.props, .create, .create⟩
  | @archFilter g r l _ e ih =>
    simp only [Category.archFilter] at e
    split at e
    · simp at e
    · simp at e; subst e; exact ⟨ih.props.copy, ih.name.copy, ih.desc.copy⟩

theorem envBuilt_inv {g : Env} (h : EnvBuilt lt g) :
    DictsInv lt g.props g.nameByLang g.descByLang := by
  induction h with
  | create => exact ⟨.create, .create, .create⟩
  | prop c _ ih => exact ⟨ih.props.run c, ih.name, ih.desc⟩
  | nameLang k s _ ih => exact ⟨ih.props, ih.name.set k s, ih.desc⟩
  | descLang k s _ ih => exact ⟨ih.props, ih.name, ih.desc.set k s⟩
  | @add g p _ ih => unfold Env.addGroupId; split <;> exact ih
  | @addOption g p _ ih => unfold Env.addOptionId; split <;> exact ih
  | setGroups l _ ih => exact ih
  | setOptions l _ ih => exact ih
  | copy _ ih => exact ⟨ih.props.copy, ih.name.copy, ih.desc.copy⟩
  | union _ _ ih ih' => exact ⟨ih.props.union ih'.props, ih.name.union ih'.name, ih.desc.union ih'.desc⟩
  | @intersect g h r _ _ e _ ih' =>
    simp only [Env.intersect, bind, Except.bind] at e
    split at e
    · simp at e
    · split at e
      · simp at e
      · simp [pure, Except.pure] at e; subst e
        exact ⟨.intersect _ ih'.props, .create, .create⟩
  | @archFilter g r l _ e ih =>
    simp only [Env.archFilter] at e
    split at e
    · simp at e
    · split at e
      · simp at e
      · simp at e; subst e; exact ⟨ih.props.copy, ih.name.copy, ih.desc.copy⟩

end Comps.Obj

namespace Comps.Obj
open Comps Comps.Spec Comps.CSet
variable {lt : UInt8 → UInt8 → Bool}

theorem copy_same {t : RTree PVal} (h : Reachable lt t) (k : Bytes) :
    (t.copy PVal.copy).get k = t.get k := by
  rw [copy_get h, PVal.copy_id]; simp

theorem filter_copy {α : Type} {copy : α → α} (hc : ∀ x, copy x = x) (l : List α) :
    l.map copy = l := by
  have : copy = id := funext hc
  simp [this]

theorem intersected_iff (a b : List CStr) : intersected a b = true ↔ ∃ x ∈ b, x ∈ a := by
  simp only [intersected, List.any_eq_true, CStr.cmp_iff]
  constructor
  · rintro ⟨x, hx, y, hy, rfl⟩; exact ⟨x, hy, hx⟩
  · rintro ⟨x, hy, hx⟩; exact ⟨x, hx, x, hy, rfl⟩

theorem archKeep_eq (arches : List CStr) (e : Option (List CStr)) (he : e ≠ some [])
    [Decidable (e.getD [] = [] ∨ ∃ a ∈ e.getD [], a ∈ arches)] :
    archKeep arches e = decide (e.getD [] = [] ∨ ∃ a ∈ e.getD [], a ∈ arches) := by
  cases e with
  | none => simp [archKeep]
  | some l =>
    have hl : l ≠ [] := fun h => he (by rw [h])
    have := intersected_iff arches l
    by_cases h : ∃ x ∈ l, x ∈ arches
    · simp only [archKeep, this.2 h, Option.getD_some]
      simp [h]
    · have h2 : intersected arches l = false := by
        cases h3 : intersected arches l
        · rfl
        · exact absurd (this.1 h3) h
      simp only [archKeep, h2, Option.getD_some]
      simp [h, hl]

theorem merge_second {α κ : Type} [DecidableEq κ] (key : α → κ) (a b : List α)
    (ha : UniqueNames key a) (hb : UniqueNames key b) : ∀ y ∈ b, y ∈ merge key a b := by
  intro y hy
  by_cases h : key y ∈ a.map key
  · obtain ⟨x, hx, hxy⟩ := List.mem_map.1 h
    obtain ⟨i, hi⟩ := List.mem_iff_getElem?.1 hx
    have hfind : (b.find? fun z => key z = key x) = some y := by
      cases hf : b.find? (fun z => decide (key z = key x)) with
      | none =>
        have := List.find?_eq_none.1 hf y hy
        simp [hxy] at this
      | some z =>
        have h1 := List.find?_some hf
        have h2 := List.mem_of_find?_eq_some hf
        simp at h1
        obtain ⟨m, hm⟩ := List.mem_iff_getElem?.1 h2
        obtain ⟨n, hn⟩ := List.mem_iff_getElem?.1 hy
        have e1 : (b.map key)[m]? = some (key y) := by
          rw [List.getElem?_map, hm, ← hxy, ← h1]; rfl
        have e2 : (b.map key)[n]? = some (key y) := by rw [List.getElem?_map, hn]; rfl
        have hml : m < (b.map key).length := (List.getElem?_eq_some_iff.1 e1).1
        have := (List.getElem?_inj hml hb).1 (e1.trans e2.symm)
        subst this
        rw [hm] at hn; exact hn
    have hov := overlay_get key b [] a i
    simp only [List.map_nil, List.not_mem_nil, false_or] at hov
    refine List.mem_append_left _ (List.mem_of_getElem? (i := i) ?_)
    rw [hov, hi]
    simp only [Option.map_some, Option.some.injEq]
    rw [if_neg, hfind]
    · rfl
    · intro hm
      obtain ⟨z, hz, hzk⟩ := List.mem_map.1 hm
      obtain ⟨j, hj⟩ := List.mem_iff_getElem?.1 hz
      rw [List.getElem?_take] at hj
      split at hj
      · rename_i hji
        have h1 : (a.map key)[j]? = some (key x) := by rw [List.getElem?_map, hj, ← hzk]; rfl
        have h2 : (a.map key)[i]? = some (key x) := by rw [List.getElem?_map, hi]; rfl
        have hjl := (List.getElem?_eq_some_iff.1 h1).1
        have := (List.getElem?_inj hjl ha).1 (h1.trans h2.symm)
        omega
      · simp at hj
  · exact List.mem_append_right _ (List.mem_filter.2 ⟨hy, by simpa using h⟩)

theorem unique_common (a b : List GroupId) :
    UniqueNames GroupId.name (CSet.unique GroupId.cmpSet (common GroupId.name a b)) ∧
    (∀ g ∈ CSet.unique GroupId.cmpSet (common GroupId.name a b), g ∈ b) ∧
    (∀ n, n ∈ (CSet.unique GroupId.cmpSet (common GroupId.name a b)).map GroupId.name ↔
      n ∈ a.map GroupId.name ∧ n ∈ b.map GroupId.name) := by
  have hmem : ∀ (l s : List GroupId) (g : GroupId), g ∈ l.foldl (add GroupId.cmpSet) s →
      g ∈ s ∨ g ∈ l := by
    intro l
    induction l with
    | nil => exact fun s g h => .inl h
    | cons x xs ih =>
      intro s g h
      rcases ih _ g h with h | h
      · rcases add_mem_cases _ _ _ _ h with h | h
        · exact .inl h
        · exact .inr (by simp [h])
      · exact .inr (by simp [h])
  refine ⟨?_, ?_, ?_⟩
  · have := foldl_add_uniq (eqf := GroupId.cmpSet) (common GroupId.name a b) [] List.Pairwise.nil
    unfold UniqueNames List.Nodup
    rw [List.pairwise_map]
    refine List.Pairwise.imp ?_ this
    intro x y hxy e
    rw [(GroupId.cmpSet_iff x y).2 e] at hxy
    simp at hxy
  · intro g hg
    rcases hmem _ _ g hg with h | h
    · simp at h
    · exact (List.mem_filter.1 h).1
  · intro n
    have hc : ∀ n, n ∈ (common GroupId.name a b).map GroupId.name ↔
        n ∈ a.map GroupId.name ∧ n ∈ b.map GroupId.name := by
      intro n
      simp only [common, List.mem_map, List.mem_filter, decide_eq_true_eq]
      constructor
      · rintro ⟨g, ⟨h1, h2⟩, rfl⟩; exact ⟨h2, g, h1, rfl⟩
      · rintro ⟨h1, g, h2, rfl⟩; exact ⟨g, ⟨h2, h1⟩, rfl⟩
    rw [← hc]
    constructor
    · intro h
      obtain ⟨g, hg, rfl⟩ := List.mem_map.1 h
      rcases hmem _ _ g hg with h | h
      · simp at h
      · exact List.mem_map.2 ⟨g, h, rfl⟩
    · intro h
      obtain ⟨g, hg, rfl⟩ := List.mem_map.1 h
      have h2 : mem GroupId.cmpSet ((common GroupId.name a b).foldl (add GroupId.cmpSet) []) g = true := by
        rw [mem_foldl_add GroupId.cmpSet_iff]; simpa using h
      obtain ⟨z, hz, e⟩ := (mem_iff _ _ _).1 h2
      exact List.mem_map.2 ⟨z, hz, (GroupId.cmpSet_iff _ _).1 e⟩

end Comps.Obj
