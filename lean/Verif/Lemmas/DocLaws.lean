import Verif.Lemmas.Doc
import Verif.Lemmas.MergeLaws

/-! # Lemmas: laws of merging lists of entries with ids -/

namespace Comps.Obj
open Comps Comps.Spec Comps.CSet
variable {α κ : Type} [DecidableEq κ] {eqf : α → α → Bool} {key : α → κ}
  {copy : α → α} {mrg : α → α → α} {P : α → Prop} {R : α → α → Prop}

/-- Copies are alike, and merging respects likeness and does not depend on the order. -/
structure MergeLaws (copy : α → α) (mrg : α → α → α) (P : α → Prop) (R : α → α → Prop) : Prop where
  refl : ∀ x, R x x
  symm : ∀ {x y}, R x y → R y x
  trans : ∀ {x y z}, R x y → R y z → R x z
  copy_like : ∀ x, P x → R (copy x) x
  congr : ∀ {x x' y y'}, P x → P x' → P y → P y' → R x x' → R y y' → R (mrg x y) (mrg x' y')
  assoc : ∀ x y z, P x → P y → P z → R (mrg (mrg x y) z) (mrg x (mrg y z))

/-- What becomes of an entry of the second list. -/
def joined (key : α → κ) (copy : α → α) (mrg : α → α → α) (a : List α) (y : α) : α :=
  match named key a (key y) with
  | some x => mrg (copy x) y
  | none => copy y

theorem joined_ok (hm : MergeOk key copy mrg P) {a : List α} (ha : ∀ x ∈ a, P x) {y : α} (hy : P y) :
    P (joined key copy mrg a y) ∧ key (joined key copy mrg a y) = key y := by
  unfold joined
  split
  · rename_i x hx
    have h1 := ha x (List.mem_of_find?_eq_some hx)
    have h2 : key x = key y := named_key hx
    exact ⟨hm.merges _ _ (hm.copies _ h1) hy, hm.mrg_key _ _ (hm.copies _ h1) hy
      ((hm.copy_key _ h1).trans h2)⟩
  · exact ⟨hm.copies _ hy, hm.copy_key _ hy⟩

theorem docUnionList_joined (hk : ByKey eqf key) (hm : MergeOk key copy mrg P) {a b : List α}
    (ha : ∀ x ∈ a, P x) (hb : ∀ x ∈ b, P x) (ua : UniqueNames key a) (ub : UniqueNames key b) :
    docUnionList eqf copy mrg a b = ((a.filter fun x => key x ∉ b.map key).map copy) ++
      b.map (joined key copy mrg a) := docUnionList_eq hk hm ha hb ua ub

theorem named_map {f : α → α} {l : List α} (h : ∀ x ∈ l, key (f x) = key x) (k : κ) :
    named key (l.map f) k = (named key l k).map f := by
  induction l with
  | nil => rfl
  | cons x xs ih =>
    have h1 := h x (by simp)
    have h2 := ih fun y hy => h y (by simp [hy])
    unfold named at h2 ⊢
    rw [List.map_cons, List.find?_cons, List.find?_cons, h1, h2]
    cases decide (key x = k) <;> rfl

theorem named_filter (l : List α) (S : List κ) (k : κ) :
    named key (l.filter fun x => key x ∉ S) k = if k ∈ S then none else named key l k := by
  unfold named
  rw [List.find?_filter]
  by_cases hk : k ∈ S
  · rw [if_pos hk, List.find?_eq_none]
    intro x _
    simp only [decide_eq_true_eq, not_and]
    intro h1 h2
    exact h1 (h2 ▸ hk)
  · rw [if_neg hk]
    congr 1
    funext x
    by_cases h : key x = k
    · simp [h, hk]
    · simp [h]

theorem filter_map_key {f : α → α} {l : List α} (h : ∀ x ∈ l, key (f x) = key x) (S : List κ) :
    (l.map f).filter (fun x => key x ∉ S) = (l.filter fun x => key x ∉ S).map f := by
  rw [List.filter_map]
  congr 1
  apply List.filter_congr
  intro x hx
  simp only [Function.comp, h x hx]

/-- Entry lists with distinct ids: whichever two of three are merged first, the result is alike. -/
theorem docUnionList_assoc (hk : ByKey eqf key) (hm : MergeOk key copy mrg P)
    (hL : MergeLaws copy mrg P R) {a b c : List α} (ha : ∀ x ∈ a, P x) (hb : ∀ x ∈ b, P x)
    (hc : ∀ x ∈ c, P x) (ua : UniqueNames key a) (ub : UniqueNames key b) (uc : UniqueNames key c) :
    Alike R (docUnionList eqf copy mrg (docUnionList eqf copy mrg a b) c)
      (docUnionList eqf copy mrg a (docUnionList eqf copy mrg b c)) := by
  obtain ⟨uab, pab, kab⟩ := docUnionList_ok hk hm ha hb
  obtain ⟨ubc, pbc, kbc⟩ := docUnionList_ok hk hm hb hc
  have eab := docUnionList_joined hk hm ha hb ua ub
  have ebc := docUnionList_joined hk hm hb hc ub uc
  have cab : ∀ x ∈ a.filter (fun x => key x ∉ b.map key), key (copy x) = key x :=
    fun x hx => hm.copy_key x (ha x (List.mem_filter.1 hx).1)
  have jab : ∀ x ∈ b, key (joined key copy mrg a x) = key x :=
    fun x hx => (joined_ok hm ha (hb x hx)).2
  rw [docUnionList_joined hk hm pab hc uab uc, docUnionList_joined hk hm ha pbc ua ubc]
  generalize hU : docUnionList eqf copy mrg a b = U at *
  generalize hV : docUnionList eqf copy mrg b c = V at *
  -- the first two parts
  have p1 : (U.filter fun x => key x ∉ c.map key).map copy =
      ((a.filter fun x => key x ∉ V.map key).map fun x => copy (copy x)) ++
        (b.filter fun x => key x ∉ c.map key).map fun x => copy (joined key copy mrg a x) := by
    rw [eab, List.filter_append, filter_map_key cab, filter_map_key jab, List.map_append, List.map_map,
      List.map_map, List.filter_filter]
    congr 2
    apply List.filter_congr
    intro x _
    rw [← Bool.decide_and]
    apply decide_eq_decide.2
    rw [kbc, not_or]
    exact and_comm
  have p2 : V.map (joined key copy mrg a) =
      ((b.filter fun x => key x ∉ c.map key).map fun x => joined key copy mrg a (copy x)) ++
        c.map fun y => joined key copy mrg a (joined key copy mrg b y) := by
    rw [ebc, List.map_append, List.map_map, List.map_map]
    rfl
  rw [p1, p2, List.append_assoc]
  have like_map : ∀ (f g : α → α) (l : List α), (∀ x ∈ l, R (f x) (g x)) →
      Alike R (l.map f) (l.map g) := by
    intro f g l h
    refine ⟨by simp, fun i x y hx hy => ?_⟩
    rw [List.getElem?_map] at hx hy
    cases hz : l[i]? with
    | none => rw [hz] at hx; simp at hx
    | some z =>
      rw [hz] at hx hy
      simp at hx hy
      subst hx; subst hy
      exact h z (List.mem_of_getElem? hz)
  have like_append : ∀ {l1 l2 m1 m2 : List α}, Alike R l1 m1 → Alike R l2 m2 →
      Alike R (l1 ++ l2) (m1 ++ m2) := by
    intro l1 l2 m1 m2 h h'
    refine ⟨by simp [h.1, h'.1], ?_⟩
    intro i x y hx hy
    rw [List.getElem?_append] at hx hy
    rw [← h.1] at hy
    split at hx
    · rename_i hi
      rw [if_pos hi] at hy
      exact h.2 i x y hx hy
    · rename_i hi
      rw [if_neg hi] at hy
      exact h'.2 _ x y hx hy
  have fnd : ∀ {l : List α} {k : κ} {x : α}, (∀ x ∈ l, P x) → named key l k = some x → P x :=
    fun h hx => h _ (List.mem_of_find?_eq_some hx)
  -- a joined entry is like the merge, and copying the entry first does not matter
  have jcopy : ∀ y, P y → R (copy (joined key copy mrg a y)) (joined key copy mrg a (copy y)) := by
    intro y hy
    refine hL.trans (hL.copy_like _ (joined_ok hm ha hy).1) ?_
    unfold joined
    rw [hm.copy_key y hy]
    cases hx : named key a (key y) with
    | none => exact hL.symm (hL.copy_like _ (hm.copies _ hy))
    | some x =>
      have px := hm.copies _ (fnd ha hx)
      exact hL.congr px px hy (hm.copies _ hy) (hL.refl _) (hL.symm (hL.copy_like _ hy))
  refine like_append (like_map _ _ _ fun x hx => ?_) (like_append (like_map _ _ _ fun x hx => ?_)
    (like_map _ _ _ fun y hy => ?_))
  · exact hL.copy_like _ (hm.copies _ (ha x (List.mem_filter.1 hx).1))
  · exact jcopy x (hb x (List.mem_filter.1 hx).1)
  · have py := hc y hy
    have hj := joined_ok hm hb py
    have fU : named key U (key y) = (if key y ∈ b.map key then none else (named key a (key y)).map copy).or
        ((named key b (key y)).map (joined key copy mrg a)) := by
      rw [eab]
      refine List.find?_append.trans ?_
      have e1 := named_map cab (key y)
      rw [named_filter] at e1
      have e2 := named_map jab (key y)
      unfold named at e1 e2 ⊢
      rw [e1, e2]
      split <;> rfl
    by_cases hyb : key y ∈ b.map key
    · obtain ⟨z, hz⟩ := named_isSome hyb
      have pz := fnd hb hz
      have kz : key z = key y := named_key hz
      rw [if_pos hyb, hz, Option.none_or, Option.map_some] at fU
      have eL : joined key copy mrg U y = mrg (copy (joined key copy mrg a z)) y := by
        conv => lhs; unfold joined
        rw [fU]
      have eB : joined key copy mrg b y = mrg (copy z) y := by
        conv => lhs; unfold joined
        rw [hz]
      rw [eL, eB]
      have kM : key (mrg (copy z) y) = key y := by rw [← eB]; exact hj.2
      have pz' := hm.copies _ pz
      have pj := (joined_ok hm ha pz).1
      refine hL.trans (hL.congr (hm.copies _ pj) pj py py (hL.copy_like _ pj) (hL.refl y)) ?_
      cases hx : named key a (key y) with
      | none =>
        have e1 : joined key copy mrg a z = copy z := by
          unfold joined; rw [kz, hx]
        have e2 : joined key copy mrg a (mrg (copy z) y) = copy (mrg (copy z) y) := by
          unfold joined; rw [kM, hx]
        rw [e1, e2]
        exact hL.symm (hL.copy_like _ (hm.merges _ _ pz' py))
      | some x =>
        have px' := hm.copies _ (fnd ha hx)
        have e1 : joined key copy mrg a z = mrg (copy x) z := by
          unfold joined; rw [kz, hx]
        have e2 : joined key copy mrg a (mrg (copy z) y) = mrg (copy x) (mrg (copy z) y) := by
          unfold joined; rw [kM, hx]
        rw [e1, e2]
        refine hL.trans (hL.assoc _ _ _ px' pz py) ?_
        exact hL.congr px' px' (hm.merges _ _ pz py) (hm.merges _ _ pz' py) (hL.refl _)
          (hL.congr pz pz' py py (hL.symm (hL.copy_like _ pz)) (hL.refl y))
    · have hz : named key b (key y) = none := named_none hyb
      rw [if_neg hyb, hz, Option.map_none, Option.or_none] at fU
      have eB : joined key copy mrg b y = copy y := by
        conv => lhs; unfold joined
        rw [hz]
      rw [eB]
      refine hL.trans ?_ (jcopy y py)
      refine hL.trans ?_ (hL.symm (hL.copy_like _ (joined_ok hm ha py).1))
      cases hx : named key a (key y) with
      | none =>
        rw [hx, Option.map_none] at fU
        have e1 : joined key copy mrg U y = copy y := by unfold joined; rw [fU]
        have e2 : joined key copy mrg a y = copy y := by unfold joined; rw [hx]
        rw [e1, e2]
        exact hL.refl _
      | some x =>
        rw [hx, Option.map_some] at fU
        have px' := hm.copies _ (fnd ha hx)
        have e1 : joined key copy mrg U y = mrg (copy (copy x)) y := by unfold joined; rw [fU]
        have e2 : joined key copy mrg a y = mrg (copy x) y := by unfold joined; rw [hx]
        rw [e1, e2]
        exact hL.congr (hm.copies _ px') px' py py (hL.copy_like _ px') (hL.refl y)

/-- Entry lists with distinct ids merged with themselves. -/
theorem docUnionList_self (hk : ByKey eqf key) (hm : MergeOk key copy mrg P)
    (hL : MergeLaws copy mrg P R) {a : List α} (ha : ∀ x ∈ a, P x) (ua : UniqueNames key a)
    (hs : ∀ x ∈ a, R (mrg x x) x) : Alike R (docUnionList eqf copy mrg a a) a := by
  rw [docUnionList_joined hk hm ha ha ua ua]
  have e : (a.filter fun x => key x ∉ a.map key) = [] := by
    rw [List.filter_eq_nil_iff]
    intro x hx
    simp only [decide_eq_true_eq, Classical.not_not]
    exact List.mem_map.2 ⟨x, hx, rfl⟩
  rw [e, List.map_nil, List.nil_append]
  refine ⟨by simp, fun i x y hx hy => ?_⟩
  rw [List.getElem?_map, hy, Option.map_some, Option.some.injEq] at hx
  subst hx
  have hy' := List.mem_of_getElem? hy
  have hn : named key a (key y) = some y := by
    obtain ⟨z, hz⟩ := named_isSome (List.mem_map.2 ⟨y, hy', rfl⟩ : key y ∈ a.map key)
    have hzm := List.mem_of_find?_eq_some hz
    have kz : key z = key y := named_key hz
    obtain ⟨j, hj⟩ := List.mem_iff_getElem?.1 hzm
    have e1 : (a.map key)[j]? = some (key y) := by rw [List.getElem?_map, hj, ← kz]; rfl
    have e2 : (a.map key)[i]? = some (key y) := by rw [List.getElem?_map, hy]; rfl
    have := (List.getElem?_inj (List.getElem?_eq_some_iff.1 e1).1 ua).1 (e1.trans e2.symm)
    subst this
    rw [hz, ← hj, hy]
  unfold joined
  rw [hn]
  have py := ha y hy'
  exact hL.trans (hL.congr (hm.copies _ py) py py py (hL.copy_like _ py) (hL.refl y)) (hs y hy')

end Comps.Obj
