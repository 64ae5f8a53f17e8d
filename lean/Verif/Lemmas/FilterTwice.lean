import Verif.Lemmas.FilterLaws

/-!
# Filtering lists of entries twice (helpers of C176)
-/

namespace Comps
open Comps.Obj Comps.Spec

variable {α : Type}

/-- What `docFilterList` gives when it does not fail. -/
theorem docFilterList_shape {arches : α → Res (Option (List CStr))} {filter : α → Res α} {f : α → α}
    {keep : α → Bool} {req : List CStr} {l l' : List α}
    (h : docFilterList arches filter req l = .ok l')
    (ha : ∀ x ∈ l, ∃ a, arches x = .ok a ∧ keep x = archKeep req a)
    (hf : ∀ x r, filter x = .ok r → r = f x) : l' = l.filterMap (left keep f) := by
  have gen : ∀ (l acc l' : List α), (∀ x ∈ l, ∃ a, arches x = .ok a ∧ keep x = archKeep req a) →
      l.foldlM (fun acc x => do
        let a ← arches x
        if archKeep req a then return acc ++ [← filter x] else return acc) acc = Except.ok l' →
      l' = acc ++ l.filterMap (left keep f) := by
    intro l
    induction l with
    | nil => intro acc l' _ h; simp [pure, Except.pure] at h; simp [h]
    | cons x xs ih =>
      intro acc l' ha h
      obtain ⟨a, e1, e2⟩ := ha x (by simp)
      rw [List.foldlM_cons] at h
      simp only [e1, bind, Except.bind, pure, Except.pure] at h
      cases hk : keep x with
      | true =>
        rw [hk] at e2
        simp only [← e2, if_true] at h
        cases hc : filter x with
        | error e => rw [hc] at h; simp at h
        | ok r =>
          rw [hc] at h
          have := ih _ _ (fun y hy => ha y (by simp [hy])) h
          rw [List.filterMap_cons_some (left_some hk), this, hf x r hc]
          simp
      | false =>
        rw [hk] at e2
        simp only [← e2, Bool.false_eq_true, if_false] at h
        rw [List.filterMap_cons_none (left_none hk)]
        exact ih _ _ (fun y hy => ha y (by simp [hy])) h
  simpa using gen l [] l' ha h

theorem left_left {k1 k2 : α → Bool} {f1 f2 : α → α} {l : List α} (h : ∀ x ∈ l, k2 (f1 x) = k2 x) :
    (l.filterMap (left k1 f1)).filterMap (left k2 f2) =
      (l.filter fun x => k1 x && k2 x).map fun x => f2 (f1 x) := by
  induction l with
  | nil => rfl
  | cons x xs ih =>
    have ih := ih fun y hy => h y (by simp [hy])
    have hx := h x (by simp)
    cases e1 : k1 x with
    | false =>
      rw [List.filterMap_cons_none (left_none e1), List.filter_cons_of_neg (by simp [e1]), ih]
    | true =>
      rw [List.filterMap_cons_some (left_some e1)]
      cases e2 : k2 x with
      | false =>
        rw [List.filterMap_cons_none (left_none (hx.trans e2)), List.filter_cons_of_neg (by simp [e2]), ih]
      | true =>
        rw [List.filterMap_cons_some (left_some (hx.trans e2)), List.filter_cons_of_pos (by simp [e1, e2]),
          List.map_cons, ih]

/-- Filtering by two criteria in both orders. -/
theorem left_comm {R : α → α → Prop} {k1 k2 : α → Bool} {f1 f2 : α → α} {l : List α}
    (h1 : ∀ x ∈ l, k2 (f1 x) = k2 x) (h2 : ∀ x ∈ l, k1 (f2 x) = k1 x)
    (hR : ∀ x ∈ l, R (f2 (f1 x)) (f1 (f2 x))) :
    Alike R ((l.filterMap (left k1 f1)).filterMap (left k2 f2))
      ((l.filterMap (left k2 f2)).filterMap (left k1 f1)) := by
  rw [left_left h1, left_left h2]
  have : (l.filter fun x => k2 x && k1 x) = l.filter fun x => k1 x && k2 x :=
    List.filter_congr fun x _ => Bool.and_comm ..
  rw [this]
  refine ⟨by simp, fun i x y hx hy => ?_⟩
  rw [List.getElem?_map] at hx hy
  cases e : (l.filter fun x => k1 x && k2 x)[i]? with
  | none => rw [e] at hx; cases hx
  | some z =>
    rw [e] at hx hy
    cases hx; cases hy
    exact hR z (List.mem_filter.1 (List.mem_of_getElem? e)).1

end Comps
