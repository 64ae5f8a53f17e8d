import Verif.Lemmas.Merge
import Verif.Lemmas.RTreeReach

/-! # Lemmas: values, packages, group ids, property dictionaries -/

namespace Comps.RTree
open Comps.Spec
variable {V : Type}

/-- In a listing, no key is a prefix of an earlier one. -/
theorem preL_order {l : HSList (Node V)} (hl : WF l) (p : Bytes) :
    (preL p l.items).Pairwise (fun a b => ¬ b.1 <+: a.1) := by
  induction hl generalizing p with
  | mk l h1 h2 h3 h4 ih =>
    have hl : WF l := .mk l h1 h2 h3 h4
    rw [preL_eq, List.pairwise_flatMap]
    constructor
    · intro n hn
      rw [preN_eq, List.pairwise_append]
      refine ⟨by cases n.data <;> simp [emit], ih n hn _, ?_⟩
      rintro ⟨k, v⟩ ha ⟨k', v'⟩ hb
      obtain ⟨rfl, -⟩ := mem_emit.1 ha
      obtain ⟨q, rfl, hq⟩ := (mem_preL (hl.sub n hn) _ _ _).1 hb
      have := listLk_some_ne (hl.sub n hn).heads hq
      intro h
      have hlen := h.length_le
      simp only [List.length_append] at hlen
      have : 0 < q.length := List.length_pos_iff.2 this
      omega
    · refine h2.imp_of_mem ?_
      rintro n m hn hm hnm ⟨k, v⟩ ha ⟨k', v'⟩ hb h
      have e1 := mem_preN hl hn ha
      have e2 := mem_preN hl hm hb
      have hi := incomp_heads (k := p) (h1 n hn) (h1 m hm) hnm
      rcases prefix_comparable e1 (e2.trans h) with h5 | h5
      · exact hi.1 h5
      · exact hi.2 h5

theorem pairs_order {t : RTree V} (h : WF t.subnodes) :
    t.pairs.Pairwise fun a b => ¬ b.1 <+: a.1 := by
  rw [pairs_eq]; exact preL_order h _

theorem pairs_ne {t : RTree V} (h : WF t.subnodes) {k : Bytes} {v : V} (hm : (k, v) ∈ t.pairs) :
    k ≠ [] := by
  rw [mem_pairs h] at hm
  rintro rfl
  exact absurd hm (by simp [get, getLoop])

theorem reach_setAll {lt : UInt8 → UInt8 → Bool} (calls : List (Bytes × Option V))
    {S : List Bytes} {t : RTree V} (h : Reach lt S t) :
    ∃ S', Reach lt S' (setAll lt t calls) := by
  induction calls generalizing S t with
  | nil => exact ⟨S, h⟩
  | cons e es ih => exact ih (.set e.1 e.2 h)

end Comps.RTree

namespace Comps.Obj
open Comps Comps.Spec Comps.CSet

@[simp] theorem CStr.copy_eq (s : CStr) : s.copy = s := by
  cases s with | mk v => cases v <;> rfl

theorem CStr.cmp_iff (a b : CStr) : a.cmp b = true ↔ a = b := by
  cases a with | mk v => cases b with | mk w => cases v <;> cases w <;> simp [CStr.cmp]

theorem objCmp_iff {α : Type} {f : α → α → Bool} (hf : ∀ a b, f a b = true ↔ a = b)
    (a b : Option α) : objCmp f a b = true ↔ a = b := by
  cases a <;> cases b <;> simp [objCmp, hf]

@[simp] theorem listCopy_eq (l : List CStr) : listCopy CStr.copy l = l := by
  have : CStr.copy = id := funext CStr.copy_eq
  simp [listCopy, this]

@[simp] theorem objCopy_id {α : Type} (f : α → α) (hf : ∀ x, f x = x) (o : Option α) :
    objCopy f o = o := by cases o <;> simp [objCopy, hf]

theorem listCmp_iff_forall2 {α : Type} (f : α → α → Bool) (a b : List α) :
    listCmp f a b = true ↔ a.length = b.length ∧
      ∀ (i : Nat) (x y : α), a[i]? = some x → b[i]? = some y → f x y = true := by
  induction a generalizing b with
  | nil => cases b <;> simp [listCmp]
  | cons x xs ih =>
    cases b with
    | nil => simp [listCmp]
    | cons y ys =>
      simp only [listCmp, List.length_cons]
      by_cases h : f x y = true
      · rw [if_pos h, ih]
        constructor
        · rintro ⟨h1, h2⟩
          refine ⟨by omega, ?_⟩
          intro i
          cases i with
          | zero => simp only [List.getElem?_cons_zero]; rintro x' y' ⟨⟩ ⟨⟩; exact h
          | succ i => simpa using h2 i
        · rintro ⟨h1, h2⟩
          refine ⟨by omega, fun i x' y' hx hy => h2 (i + 1) x' y' (by simpa using hx) (by simpa using hy)⟩
      · rw [if_neg h]
        constructor
        · intro h'; simp at h'
        · rintro ⟨-, h2⟩
          exact absurd (h2 0 x y (by simp) (by simp)) h

theorem listCmp_iff {α : Type} {f : α → α → Bool} (hf : ∀ a b, f a b = true ↔ a = b)
    (a b : List α) : listCmp f a b = true ↔ a = b := by
  induction a generalizing b with
  | nil => cases b <;> simp [listCmp]
  | cons x xs ih =>
    cases b with
    | nil => simp [listCmp]
    | cons y ys =>
      simp only [listCmp]
      by_cases h : f x y = true
      · rw [if_pos h, ih, (hf _ _).1 h]; simp
      · rw [if_neg h]
        have : x ≠ y := fun e => h ((hf _ _).2 e)
        simp [this]

@[simp] theorem PVal.copy_eq (v : PVal) : v.copy = v := by
  cases v <;> simp [PVal.copy]

theorem PVal.copy_id : PVal.copy = id := funext PVal.copy_eq

theorem PVal.cmp_iff (a b : PVal) : a.cmp b = true ↔ a = b := by
  cases a <;> cases b <;> simp [PVal.cmp, PVal.cmpR, CStr.cmp_iff, listCmp_iff CStr.cmp_iff]

@[simp] theorem Package.copy_eq (p : Package) : p.copy = p := by
  cases p; simp [Package.copy, objCopy_id]

@[simp] theorem GroupId.copy_eq (g : GroupId) : g.copy = g := by
  cases g; simp [GroupId.copy, objCopy_id]

theorem Package.cmpSet_iff : ByKey Package.cmpSet Package.name := by
  intro a b; exact objCmp_iff CStr.cmp_iff _ _

theorem GroupId.cmpSet_iff : ByKey GroupId.cmpSet GroupId.name := by
  intro a b; exact objCmp_iff CStr.cmp_iff _ _

theorem Package.cmp_iff (a b : Package) :
    a.cmp b = true ↔ a.name = b.name ∧ a.requires = b.requires ∧ a.type = b.type := by
  have h1 := objCmp_iff CStr.cmp_iff a.name b.name
  have h2 := objCmp_iff CStr.cmp_iff a.requires b.requires
  unfold Package.cmp
  cases e1 : objCmp CStr.cmp a.name b.name <;> cases e2 : objCmp CStr.cmp a.requires b.requires <;>
    simp only [e1, e2] at h1 h2 <;> by_cases e3 : a.type = b.type <;> simp_all

theorem GroupId.cmp_iff (a b : GroupId) : a.cmp b = true ↔ a.name = b.name ∧ a.dflt = b.dflt := by
  have h1 := objCmp_iff CStr.cmp_iff a.name b.name
  unfold GroupId.cmp
  cases e1 : objCmp CStr.cmp a.name b.name <;>
    simp only [e1] at h1 <;> by_cases e3 : a.dflt = b.dflt <;> simp_all

/-- A dictionary reached through the API. -/
def Reachable {V : Type} (lt : UInt8 → UInt8 → Bool) (t : RTree V) : Prop := ∃ S, Reach lt S t

variable {lt : UInt8 → UInt8 → Bool}

theorem Reachable.wf {V : Type} {t : RTree V} (h : Reachable lt t) : RTree.WF t.subnodes := by
  obtain ⟨S, h⟩ := h; exact (RTree.reach_inv h).wf

theorem Reachable.create {V : Type} : Reachable lt (RTree.create : RTree V) := ⟨[], .create⟩
theorem Reachable.set {V : Type} {t : RTree V} (h : Reachable lt t) (k : Bytes) (v : Option V) :
    Reachable lt (t.set lt k v) := by obtain ⟨S, h⟩ := h; exact ⟨_, .set k v h⟩
theorem Reachable.copy {V : Type} {t : RTree V} (h : Reachable lt t) (f : V → V) :
    Reachable lt (t.copy f) := by obtain ⟨S, h⟩ := h; exact ⟨_, .copy f h⟩
theorem Reachable.union {V : Type} {t t' : RTree V} (h : Reachable lt t) (h' : Reachable lt t')
    (f : V → V) : Reachable lt (t.union lt f t') := by
  obtain ⟨S, h⟩ := h; obtain ⟨S', h'⟩ := h'; exact ⟨_, .unite (.clone f h) h'⟩

theorem dict_cmp_iff {t1 t2 : RTree PVal} (h1 : Reachable lt t1) (h2 : Reachable lt t2) :
    RTree.cmp PVal.cmp t1 t2 = true ↔ ∀ k, t1.get k = t2.get k := by
  rw [RTree.cmp_iff PVal.cmp h1.wf h2.wf]
  constructor
  · intro h k
    have := h k
    cases e1 : t1.get k <;> cases e2 : t2.get k <;> simp only [e1, e2] at this
    · rfl
    · rw [PVal.cmp_iff] at this; rw [this]
  · intro h k
    rw [h k]
    cases e2 : t2.get k with
    | none => trivial
    | some v => exact (PVal.cmp_iff _ _).2 rfl

theorem copy_get {V : Type} {t : RTree V} (h : Reachable lt t) (f : V → V) (k : Bytes) :
    (t.copy f).get k = (t.get k).map f := by
  have w := h.wf
  rw [RTree.get_eq (h.copy f).wf, RTree.get_eq w, RTree.copy_subnodes]
  exact RTree.listLk_clone f w k

theorem union_get {t1 t2 : RTree PVal} (h1 : Reachable lt t1) (h2 : Reachable lt t2) (k : Bytes) :
    (t1.union lt PVal.copy t2).get k = (t2.get k).or (t1.get k) := by
  have w := h1.wf
  have wc : RTree.WF (t1.clone PVal.copy).subnodes := by
    rw [RTree.clone_subnodes]; exact RTree.cloneHS_wf _ w
  have tc : RTree.TOK (fun _ => False) [] (t1.clone PVal.copy).subnodes := by
    rw [RTree.clone_subnodes]; exact RTree.cloneHS_tok _ _ _ w
  rw [RTree.union, RTree.unite_get (lt := lt) wc tc h2.wf (by simp) k]
  simp only [FMap.merge]
  rw [RTree.get_eq wc, RTree.clone_subnodes]
  have := RTree.listLk_clone PVal.copy w k
  rw [RTree.get_eq w]
  have e : RTree.listLk (RTree.cloneHS PVal.copy t1.subnodes.items).items k =
      Option.map PVal.copy (RTree.listLk t1.subnodes.items k) := this
  rw [e, PVal.copy_id]
  simp

/-! ## Intersection of property dictionaries -/

theorem foldl_if_setAll {V : Type} (p : Bytes × V → Bool) (l : List (Bytes × V)) (t : RTree V) :
    l.foldl (fun t e => if p e then t.set lt e.1 (some e.2) else t) t =
      RTree.setAll lt t (RTree.asWrites (l.filter p)) := by
  induction l generalizing t with
  | nil => rfl
  | cons e es ih =>
    simp only [List.foldl_cons]
    rw [ih]
    by_cases h : p e = true
    · rw [if_pos h, List.filter_cons_of_pos h]; rfl
    · rw [if_neg h, List.filter_cons_of_neg h]

theorem paircmp_byKey : ByKey (RTree.paircmp PVal.cmp) (id : Bytes × PVal → Bytes × PVal) := by
  rintro ⟨k, v⟩ ⟨k', v'⟩
  simp only [RTree.paircmp, id]
  by_cases h : k = k'
  · subst h; simp [PVal.cmp_iff]
  · simp [h]

theorem intersectProps_eq (p1 p2 : RTree PVal) :
    intersectProps lt p1 p2 = RTree.setAll lt RTree.create
      (RTree.asWrites (p2.pairs.filter fun e => decide (e ∈ p1.pairs))) := by
  unfold intersectProps
  simp only
  rw [foldl_if_setAll]
  congr 3
  funext e
  rw [mem_foldl_add paircmp_byKey]
  simp

theorem Reachable.intersectProps (p1 p2 : RTree PVal) : Reachable lt (intersectProps lt p1 p2) := by
  rw [intersectProps_eq]
  exact RTree.reach_setAll _ (.create)

theorem intersectProps_get {p1 p2 : RTree PVal} (h1 : Reachable lt p1) (h2 : Reachable lt p2)
    (k : Bytes) (v : PVal) :
    (intersectProps lt p1 p2).get k = some v ↔ p1.get k = some v ∧ p2.get k = some v := by
  have w1 := h1.wf
  have w2 := h2.wf
  rw [intersectProps_eq]
  have hord := ((RTree.pairs_order w2).filter fun e => decide (e ∈ p1.pairs))
  have hnd := ((RTree.pairs_nodup w2).filter fun e => decide (e ∈ p1.pairs))
  have hget := RTree.setAll_get lt (RTree.asWrites (p2.pairs.filter fun e => decide (e ∈ p1.pairs)))
    (fun _ => False) (t := (RTree.create : RTree PVal)) RTree.wf_empty (RTree.tok_empty _ _)
    (by
      intro e he
      obtain ⟨e', he', rfl⟩ := List.mem_map.1 he
      exact RTree.pairs_ne w2 (List.mem_filter.1 he').1)
    (by simp)
    (by
      rw [RTree.asWrites, List.pairwise_map]
      refine hord.imp ?_
      rintro a b hab ⟨x, xs, hp⟩
      exact hab ⟨x :: xs, hp.symm⟩) k
  rw [hget]
  have hnd' := RTree.asWrites_nodup hnd
  constructor
  · intro h
    by_cases hk : ∃ v', (k, v') ∈ p2.pairs.filter fun e => decide (e ∈ p1.pairs)
    · obtain ⟨v', hv'⟩ := hk
      have := RTree.writes_mem (RTree.create : RTree PVal).get _ k (some v')
        (List.mem_map.2 ⟨_, hv', rfl⟩) hnd'
      have h := this.symm.trans h
      cases h
      obtain ⟨h3, h4⟩ := List.mem_filter.1 hv'
      exact ⟨(RTree.mem_pairs w1 k v).1 (by simpa using h4), (RTree.mem_pairs w2 k v).1 h3⟩
    · rw [RTree.writes_not_mem] at h
      · rw [RTree.get_eq RTree.wf_empty] at h
        simp [RTree.create, HSList.empty, RTree.listLk] at h
      · intro e he hek
        obtain ⟨e', he', rfl⟩ := List.mem_map.1 he
        subst hek
        exact hk ⟨e'.2, he'⟩
  · rintro ⟨h3, h4⟩
    apply RTree.writes_mem _ _ _ _ _ hnd'
    refine List.mem_map.2 ⟨(k, v), List.mem_filter.2 ⟨(RTree.mem_pairs w2 k v).2 h4, ?_⟩, rfl⟩
    simpa using (RTree.mem_pairs w1 k v).2 h3

end Comps.Obj
