import Verif.Spec.Merge
import Verif.Spec.Doc
import Verif.Model.Doc

/-!
# List operations on related lists (for C172)

If two lists have related members, place by place, and related members have the same key, then the
merge, the intersection and the sets made from them have related members.
-/

namespace Comps.Obj
open Comps Comps.Spec

variable {α κ : Type} [DecidableEq κ] {key : α → κ} {R : α → α → Prop}

/-- Related place by place. -/
inductive Rel2 (R : α → α → Prop) : List α → List α → Prop
  | nil : Rel2 R [] []
  | cons {x y : α} {xs ys : List α} : R x y → Rel2 R xs ys → Rel2 R (x :: xs) (y :: ys)

theorem rel2_of_alike : ∀ {a b : List α}, Alike R a b → Rel2 R a b
  | [], [], _ => .nil
  | x :: xs, y :: ys, h => .cons (h.2 0 x y rfl rfl) (rel2_of_alike ⟨by simpa using h.1,
      fun i u v hu hv => h.2 (i + 1) u v (by simpa using hu) (by simpa using hv)⟩)
  | [], _ :: _, h => by have := h.1; simp at this
  | _ :: _, [], h => by have := h.1; simp at this

theorem Rel2.alike {a b : List α} (h : Rel2 R a b) : Alike R a b := by
  induction h with
  | nil => exact ⟨rfl, fun i x y hx => by simp at hx⟩
  | cons h _ ih =>
    refine ⟨by simp [ih.1], fun i u v hu hv => ?_⟩
    cases i with
    | zero => simp only [List.getElem?_cons_zero, Option.some.injEq] at hu hv; subst hu; subst hv; exact h
    | succ i => exact ih.2 i u v (by simpa using hu) (by simpa using hv)

theorem Rel2.append {a a' b b' : List α} (h : Rel2 R a a') (h' : Rel2 R b b') :
    Rel2 R (a ++ b) (a' ++ b') := by
  induction h with
  | nil => exact h'
  | cons h _ ih => exact .cons h ih

omit [DecidableEq κ] in
theorem Rel2.keys (hR : ∀ x y, R x y → key x = key y) {a b : List α} (h : Rel2 R a b) :
    a.map key = b.map key := by
  induction h with
  | nil => rfl
  | cons h _ ih => simp only [List.map_cons, hR _ _ h, ih]

theorem Rel2.filter {p q : α → Bool} (hp : ∀ x y, R x y → p x = q y) {a b : List α}
    (h : Rel2 R a b) : Rel2 R (a.filter p) (b.filter q) := by
  induction h with
  | nil => exact .nil
  | @cons x y xs ys h _ ih =>
    by_cases hx : p x = true
    · rw [List.filter_cons_of_pos hx, List.filter_cons_of_pos (by rw [← hp _ _ h]; exact hx)]
      exact .cons h ih
    · rw [List.filter_cons_of_neg hx, List.filter_cons_of_neg (by rw [← hp _ _ h]; exact hx)]
      exact ih

theorem Rel2.find {p q : α → Bool} (hp : ∀ x y, R x y → p x = q y) {a b : List α}
    (h : Rel2 R a b) : (a.find? p = none ∧ b.find? q = none) ∨
      ∃ x y, a.find? p = some x ∧ b.find? q = some y ∧ R x y := by
  induction h with
  | nil => exact .inl ⟨rfl, rfl⟩
  | @cons x y xs ys h _ ih =>
    by_cases hx : p x = true
    · exact .inr ⟨x, y, List.find?_cons_of_pos hx, List.find?_cons_of_pos (by rw [← hp _ _ h]; exact hx), h⟩
    · rw [List.find?_cons_of_neg hx, List.find?_cons_of_neg (by rw [← hp _ _ h]; exact hx)]
      exact ih

theorem Rel2.overlay (hR : ∀ x y, R x y → key x = key y) {b b' : List α} (hb : Rel2 R b b')
    {a a' : List α} (ha : Rel2 R a a') : ∀ seen : List κ,
      Rel2 R (overlay key b seen a) (overlay key b' seen a') := by
  induction ha with
  | nil => exact fun _ => .nil
  | @cons x y xs ys h _ ih =>
    intro seen
    simp only [Spec.overlay]
    rw [← hR _ _ h]
    refine .cons ?_ (ih _)
    split
    · exact h
    · rcases hb.find (p := fun z => decide (key z = key x)) (q := fun z => decide (key z = key x))
        (fun _ _ e => by rw [hR _ _ e]) with ⟨e1, e2⟩ | ⟨u, v, e1, e2, e⟩
      · rw [e1, e2]; exact h
      · rw [e1, e2]; exact e

theorem Rel2.merge (hR : ∀ x y, R x y → key x = key y) {a a' b b' : List α} (ha : Rel2 R a a')
    (hb : Rel2 R b b') : Rel2 R (merge key a b) (merge key a' b') := by
  refine (Rel2.overlay hR hb ha []).append (hb.filter fun _ _ e => ?_)
  rw [hR _ _ e, ha.keys hR]

theorem Rel2.common (hR : ∀ x y, R x y → key x = key y) {a a' b b' : List α} (ha : Rel2 R a a')
    (hb : Rel2 R b b') : Rel2 R (common key a b) (common key a' b') := by
  refine hb.filter fun _ _ e => ?_
  rw [hR _ _ e, ha.keys hR]

/-! ## Sets -/

variable {eqf : α → α → Bool} (hE : ∀ x x' y y', R x x' → R y y' → eqf x y = eqf x' y')
include hE

theorem Rel2.mem {s s' : List α} (h : Rel2 R s s') {x x' : α} (hx : R x x') :
    CSet.mem eqf s x = CSet.mem eqf s' x' := by
  induction h with
  | nil => rfl
  | cons h _ ih => simp only [CSet.mem, hE _ _ _ _ h hx, ih]

theorem Rel2.add {s s' : List α} (h : Rel2 R s s') {x x' : α} (hx : R x x') :
    Rel2 R (CSet.add eqf s x) (CSet.add eqf s' x') := by
  unfold CSet.add
  rw [h.mem hE hx]
  split
  · exact h
  · exact h.append (.cons hx .nil)

theorem Rel2.adds {l l' : List α} (hl : Rel2 R l l') : ∀ {s s' : List α}, Rel2 R s s' →
    Rel2 R (l.foldl (CSet.add eqf) s) (l'.foldl (CSet.add eqf) s') := by
  induction hl with
  | nil => exact fun h => h
  | cons hx _ ih => exact fun h => ih (h.add hE hx)

theorem Rel2.dataAt {s s' : List α} (h : Rel2 R s s') {x x' : α} (hx : R x x') :
    (CSet.dataAt eqf s x = none ∧ CSet.dataAt eqf s' x' = none) ∨
      ∃ y y', CSet.dataAt eqf s x = some y ∧ CSet.dataAt eqf s' x' = some y' ∧ R y y' := by
  induction h with
  | nil => exact .inl ⟨rfl, rfl⟩
  | @cons u v us vs h _ ih =>
    simp only [CSet.dataAt, hE _ _ _ _ h hx]
    split
    · exact .inr ⟨u, v, rfl, rfl, h⟩
    · exact ih

theorem Rel2.remove {s s' : List α} (h : Rel2 R s s') {x x' : α} (hx : R x x') :
    Rel2 R (CSet.remove eqf s x).1 (CSet.remove eqf s' x').1 := by
  induction h with
  | nil => exact .nil
  | @cons u v us vs h t ih =>
    simp only [CSet.remove, hE _ _ _ _ h hx]
    split
    · exact t
    · exact .cons h ih

theorem Rel2.docSet {copy : α → α} (hc : ∀ x y, R x y → R (copy x) (copy y)) {l l' : List α}
    (hl : Rel2 R l l') : Rel2 R (docSet eqf copy l) (docSet eqf copy l') := by
  have : ∀ {l l' : List α}, Rel2 R l l' → ∀ {s s' : List α}, Rel2 R s s' →
      Rel2 R (l.foldl (fun s x => CSet.add eqf s (copy x)) s)
        (l'.foldl (fun s x => CSet.add eqf s (copy x)) s') := by
    intro l l' hl
    induction hl with
    | nil => exact fun h => h
    | cons hx _ ih => exact fun h => ih (h.add hE (hc _ _ hx))
  exact this hl .nil

theorem Rel2.docUnionList {copy : α → α} {mrg : α → α → α} (hc : ∀ x y, R x y → R (copy x) (copy y))
    (hm : ∀ x x' y y', R x x' → R y y' → R (mrg x y) (mrg x' y')) {a a' b b' : List α}
    (ha : Rel2 R a a') (hb : Rel2 R b b') :
    Rel2 R (docUnionList eqf copy mrg a b) (docUnionList eqf copy mrg a' b') := by
  have : ∀ {l l' : List α}, Rel2 R l l' → ∀ {s s' : List α}, Rel2 R s s' →
      Rel2 R (l.foldl (docUnionStep eqf copy mrg) s) (l'.foldl (docUnionStep eqf copy mrg) s') := by
    intro l l' hl
    induction hl with
    | nil => exact fun h => h
    | cons hx _ ih =>
      intro s s' h
      refine ih ?_
      unfold docUnionStep
      rcases h.dataAt hE hx with ⟨e1, e2⟩ | ⟨y, y', e1, e2, hy⟩
      · rw [e1, e2]; exact h.add hE (hc _ _ hx)
      · rw [e1, e2]; exact (h.remove hE hx).add hE (hm _ _ _ _ hy hx)
  exact this hb (ha.docSet hE hc)

theorem Rel2.docIntersectList {common : α → α → Res α}
    (hm : ∀ x x' y y', R x x' → R y y' → ∃ r r', common x y = .ok r ∧ common x' y' = .ok r' ∧ R r r')
    {a a' b b' : List α} (ha : Rel2 R a a') (hb : Rel2 R b b') :
    ∃ l l', docIntersectList eqf common a b = .ok l ∧ docIntersectList eqf common a' b' = .ok l' ∧
      Rel2 R l l' := by
  unfold Obj.docIntersectList
  have hs := ha.adds hE (.nil (R := R))
  generalize a.foldl (CSet.add eqf) [] = s at hs
  generalize a'.foldl (CSet.add eqf) [] = s' at hs
  have : ∀ {b b' : List α}, Rel2 R b b' → ∀ {acc acc' : List α}, Rel2 R acc acc' →
      ∃ l l', b.foldlM (fun acc y =>
          match CSet.dataAt eqf s y with
          | some x => do return acc ++ [← common y x]
          | none => .ok acc) acc = (.ok l : Res (List α)) ∧
        b'.foldlM (fun acc y =>
          match CSet.dataAt eqf s' y with
          | some x => do return acc ++ [← common y x]
          | none => .ok acc) acc' = (.ok l' : Res (List α)) ∧ Rel2 R l l' := by
    intro b b' hb
    induction hb with
    | nil => exact fun h => ⟨_, _, rfl, rfl, h⟩
    | cons hx _ ih =>
      intro acc acc' h
      simp only [List.foldlM_cons]
      rcases hs.dataAt hE hx with ⟨e1, e2⟩ | ⟨y, y', e1, e2, hy⟩
      · rw [e1, e2]; exact ih h
      · obtain ⟨r, r', h1, h2, h3⟩ := hm _ _ _ _ hx hy
        rw [e1, e2]
        simp only [h1, h2]
        exact ih (h.append (.cons h3 .nil))
  exact this hb .nil

end Comps.Obj
