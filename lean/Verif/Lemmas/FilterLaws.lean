import Verif.Lemmas.InterLaws

/-! # Lemmas: filtering merged lists of entries, and merging filtered ones -/

namespace Comps.Obj
open Comps Comps.Spec Comps.CSet
variable {α κ : Type} [DecidableEq κ] {eqf : α → α → Bool} {key : α → κ}
  {copy : α → α} {mrg : α → α → α} {P : α → Prop} {R : α → α → Prop}

/-- The entry left of an entry by a filter. -/
def left (keep : α → Bool) (f : α → α) (x : α) : Option α := if keep x then some (f x) else none

theorem left_some {keep : α → Bool} {f : α → α} {x : α} (h : keep x = true) :
    left keep f x = some (f x) := if_pos h
theorem left_none {keep : α → Bool} {f : α → α} {x : α} (h : keep x = false) :
    left keep f x = none := if_neg (by simp [h])

theorem docFilterList_left {arches : α → Res (Option (List CStr))} {filter : α → Res α} {f : α → α}
    {keep : α → Bool} {req : List CStr} {l : List α}
    (h : ∀ x ∈ l, ∃ a, arches x = .ok a ∧ keep x = archKeep req a)
    (hf : ∀ x ∈ l, filter x = .ok (f x)) :
    docFilterList arches filter req l = .ok (l.filterMap (left keep f)) := by
  have gen : ∀ (l acc : List α), (∀ x ∈ l, ∃ a, arches x = .ok a ∧ keep x = archKeep req a) →
      (∀ x ∈ l, filter x = .ok (f x)) →
      l.foldlM (fun acc x => do
        let a ← arches x
        if archKeep req a then return acc ++ [← filter x] else return acc) acc =
      Except.ok (acc ++ l.filterMap (left keep f)) := by
    intro l
    induction l with
    | nil => intro acc _ _; simp [pure, Except.pure]
    | cons x xs ih =>
      intro acc h hf
      obtain ⟨a, h1, h2⟩ := h x (by simp)
      have h3 := hf x (by simp)
      have ih' := fun acc => ih acc (fun y hy => h y (by simp [hy])) fun y hy => hf y (by simp [hy])
      rw [List.foldlM_cons]
      simp only [h1, h3, bind, Except.bind, pure, Except.pure] at ih' ⊢
      cases hk : archKeep req a with
      | true =>
        rw [List.filterMap_cons_some (left_some (h2.trans hk))]
        simp only [if_true]
        rw [ih' (acc ++ [f x])]
        simp
      | false =>
        rw [List.filterMap_cons_none (left_none (h2.trans hk))]
        simp only [Bool.false_eq_true, if_false]
        exact ih' acc
  exact gen l [] h hf

omit [DecidableEq κ] in
theorem keys_left {keep : α → Bool} {f : α → α} {l : List α} (h : ∀ x ∈ l, key (f x) = key x) :
    (l.filterMap (left keep f)).map key = (l.filter keep).map key := by
  induction l with
  | nil => rfl
  | cons x xs ih =>
    have ih' := ih fun y hy => h y (by simp [hy])
    cases hk : keep x with
    | true =>
      rw [List.filterMap_cons_some (left_some hk), List.filter_cons_of_pos hk, List.map_cons,
        List.map_cons, ih', h x (by simp)]
    | false =>
      rw [List.filterMap_cons_none (left_none hk), List.filter_cons_of_neg (by simp [hk]), ih']

omit [DecidableEq κ] in
theorem unique_eq {l : List α} (u : UniqueNames key l) {x y : α} (hx : x ∈ l) (hy : y ∈ l)
    (h : key x = key y) : x = y := by
  obtain ⟨i, hi, e1⟩ := List.mem_iff_getElem.1 hx
  obtain ⟨j, hj, e2⟩ := List.mem_iff_getElem.1 hy
  have hp := List.pairwise_iff_getElem.1 u
  rcases Nat.lt_trichotomy i j with hij | hij | hij
  · have hne := hp i j (by simpa) (by simpa) hij
    simp only [List.getElem_map, e1, e2] at hne
    exact absurd h hne
  · subst hij; exact e1.symm.trans e2
  · have hne := hp j i (by simpa) (by simpa) hij
    simp only [List.getElem_map, e1, e2] at hne
    exact absurd h.symm hne

/-- The entry of an id in a filtered list with distinct ids. -/
theorem named_left {keep : α → Bool} {f : α → α} {l : List α} (h : ∀ x ∈ l, key (f x) = key x)
    (u : UniqueNames key l) (k : κ) :
    named key (l.filterMap (left keep f)) k = (named key l k).bind (left keep f) := by
  cases hn : named key l k with
  | none =>
    refine named_none fun hm => ?_
    rw [keys_left h] at hm
    obtain ⟨x, hx, e⟩ := List.mem_map.1 hm
    have := List.find?_eq_none.1 hn x (List.mem_filter.1 hx).1
    simp [e] at this
  | some x =>
    have hx := List.mem_of_find?_eq_some hn
    have hxk : key x = k := named_key hn
    rw [Option.bind_some]
    cases hk : keep x with
    | false =>
      rw [left_none hk]
      refine named_none fun hm => ?_
      rw [keys_left h] at hm
      obtain ⟨y, hy, e⟩ := List.mem_map.1 hm
      obtain ⟨hy1, hy2⟩ := List.mem_filter.1 hy
      have := unique_eq u hx hy1 (hxk.trans e.symm)
      subst this
      rw [hk] at hy2; cases hy2
    | true =>
      rw [left_some hk]
      have hin : k ∈ (l.filterMap (left keep f)).map key := by
        rw [keys_left h]
        exact List.mem_map.2 ⟨x, List.mem_filter.2 ⟨hx, hk⟩, hxk⟩
      obtain ⟨z, hz⟩ := named_isSome hin
      rw [hz]
      obtain ⟨y, hy, hyz⟩ := List.mem_filterMap.1 (List.mem_of_find?_eq_some hz)
      cases hky : keep y with
      | false => rw [left_none hky] at hyz; cases hyz
      | true =>
        rw [left_some hky] at hyz
        cases hyz
        have : x = y := unique_eq u hx hy (hxk.trans ((named_key hz).symm.trans (h y hy)))
        rw [this]

theorem alike_append {a a' b b' : List α} (h : Alike R a a') (h' : Alike R b b') :
    Alike R (a ++ b) (a' ++ b') := by
  refine ⟨by simp [h.1, h'.1], fun i x y hx hy => ?_⟩
  rcases Nat.lt_or_ge i a.length with hi | hi
  · rw [List.getElem?_append_left hi] at hx
    rw [List.getElem?_append_left (h.1 ▸ hi)] at hy
    exact h.2 i x y hx hy
  · rw [List.getElem?_append_right hi] at hx
    rw [List.getElem?_append_right (h.1 ▸ hi), ← h.1] at hy
    exact h'.2 _ x y hx hy

/-- Entries of one id are kept or dropped alike: filtering the merged list gives the same as merging
the filtered lists. -/
theorem filter_docUnionList (hk : ByKey eqf key) (hm : MergeOk key copy mrg P) {a b : List α}
    (ha : ∀ x ∈ a, P x) (hb : ∀ x ∈ b, P x) (ua : UniqueNames key a) (ub : UniqueNames key b)
    {keep : α → Bool} {f : α → α} (fa : ∀ x ∈ a, key (f x) = key x ∧ P (f x))
    (fb : ∀ x ∈ b, key (f x) = key x ∧ P (f x))
    (hab : ∀ x ∈ a, ∀ y ∈ b, key x = key y → keep x = keep y)
    (ca : ∀ x ∈ a, keep (copy x) = keep x ∧ R (f (copy x)) (copy (f x)))
    (cb : ∀ x ∈ b, keep (copy x) = keep x ∧ R (f (copy x)) (copy (f x)))
    (hmrg : ∀ x ∈ a, ∀ y ∈ b, key x = key y → keep (mrg (copy x) y) = keep y ∧
      R (f (mrg (copy x) y)) (mrg (copy (f x)) (f y))) :
    Alike R ((docUnionList eqf copy mrg a b).filterMap (left keep f))
      (docUnionList eqf copy mrg (a.filterMap (left keep f)) (b.filterMap (left keep f))) := by
  have ka := fun x hx => (fa x hx).1
  have kb := fun x hx => (fb x hx).1
  have hleft : ∀ {l : List α}, (∀ x ∈ l, key (f x) = key x ∧ P (f x)) →
      ∀ z ∈ l.filterMap (left keep f), P z := by
    intro l h z hz
    obtain ⟨x, hx, e⟩ := List.mem_filterMap.1 hz
    unfold left at e
    split at e
    · cases e; exact (h x hx).2
    · cases e
  have uleft : ∀ {l : List α}, (∀ x ∈ l, key (f x) = key x) → UniqueNames key l →
      UniqueNames key (l.filterMap (left keep f)) := by
    intro l h u
    unfold UniqueNames
    rw [keys_left h]
    exact (List.filter_sublist.map key).nodup u
  rw [docUnionList_joined hk hm ha hb ua ub,
    docUnionList_joined hk hm (hleft fa) (hleft fb) (uleft ka ua) (uleft kb ub), List.filterMap_append]
  refine alike_append ?_ ?_
  · -- the entries of the first list only
    have e1 : ((a.filter fun x => key x ∉ b.map key).map copy).filterMap (left keep f) =
        a.filterMap fun x => if key x ∈ b.map key then none else left keep f (copy x) := by
      rw [List.filterMap_map, List.filterMap_filter]
      congr 1
      funext x
      by_cases h : key x ∈ b.map key <;> simp [h]
    have e2 : ((a.filterMap (left keep f)).filter
          fun x => key x ∉ (b.filterMap (left keep f)).map key).map copy =
        a.filterMap fun x => (left keep f x).bind fun z =>
          if key z ∈ (b.filter keep).map key then none else some (copy z) := by
      rw [keys_left kb, ← List.filterMap_filterMap]
      generalize a.filterMap (left keep f) = l
      induction l with
      | nil => rfl
      | cons z zs ih =>
        by_cases h : key z ∈ (b.filter keep).map key
        · rw [List.filter_cons_of_neg (by rw [decide_eq_true_eq]; exact not_not_intro h),
            List.filterMap_cons_none (by rw [if_pos h]), ih]
        · rw [List.filter_cons_of_pos (by rw [decide_eq_true_eq]; exact h),
            List.filterMap_cons_some (by rw [if_neg h]), List.map_cons, ih]
    rw [e1, e2]
    refine alike_filterMap fun x hx => ?_
    cases hkx : keep x with
    | false =>
      refine .inl ⟨?_, by rw [left_none hkx]; rfl⟩
      rw [left_none ((ca x hx).1.trans hkx)]
      simp
    | true =>
      rw [left_some hkx, Option.bind_some, ka x hx, left_some ((ca x hx).1.trans hkx)]
      by_cases h : key x ∈ b.map key
      · obtain ⟨y, hy, e⟩ := List.mem_map.1 h
        have : key x ∈ (b.filter keep).map key :=
          List.mem_map.2 ⟨y, List.mem_filter.2 ⟨hy, (hab x hx y hy e.symm).symm.trans hkx⟩, e⟩
        exact .inl ⟨if_pos h, if_pos this⟩
      · have : key x ∉ (b.filter keep).map key := by
          intro h'
          obtain ⟨y, hy, e⟩ := List.mem_map.1 h'
          exact h (List.mem_map.2 ⟨y, (List.mem_filter.1 hy).1, e⟩)
        exact .inr ⟨_, _, if_neg h, if_neg this, (ca x hx).2⟩
  · -- the entries of the second list
    have e2 : (b.filterMap (left keep f)).map (joined key copy mrg (a.filterMap (left keep f))) =
        b.filterMap fun y => (left keep f y).map (joined key copy mrg (a.filterMap (left keep f))) := by
      rw [List.map_filterMap]
    rw [List.filterMap_map, e2]
    refine alike_filterMap fun y hy => ?_
    have hkj : keep (joined key copy mrg a y) = keep y := by
      unfold joined
      split
      · rename_i x hx
        exact (hmrg x (List.mem_of_find?_eq_some hx) y hy (named_key hx)).1
      · exact (cb y hy).1
    cases hky : keep y with
    | false =>
      refine .inl ⟨left_none (hkj.trans hky), by rw [left_none hky]; rfl⟩
    | true =>
      refine .inr ⟨_, _, left_some (hkj.trans hky), by rw [left_some hky]; rfl, ?_⟩
      have hn := named_left (keep := keep) (f := f) ka ua (key y)
      cases hx : named key a (key y) with
      | none =>
        rw [hx, Option.bind_none] at hn
        simp only [joined, hx, kb y hy, hn]
        exact (cb y hy).2
      | some x =>
        have hxa := List.mem_of_find?_eq_some hx
        have hxy : key x = key y := named_key hx
        rw [hx, Option.bind_some, left_some ((hab x hxa y hy hxy).trans hky)] at hn
        simp only [joined, hx, kb y hy, hn]
        exact (hmrg x hxa y hy hxy).2

end Comps.Obj
