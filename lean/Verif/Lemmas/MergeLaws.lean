import Verif.Lemmas.Merge

/-! # Lemmas: laws of merging and intersecting lists of named entries -/

namespace Comps.Spec
variable {α κ : Type} [DecidableEq κ]

/-- The first entry of a name. -/
abbrev named (key : α → κ) (l : List α) (k : κ) : Option α := l.find? fun y => key y = k

theorem named_key {key : α → κ} {l : List α} {k : κ} {y : α} (h : named key l k = some y) :
    key y = k := by simpa using List.find?_some h

theorem named_none {key : α → κ} {l : List α} {k : κ} (h : k ∉ l.map key) :
    named key l k = none := by
  refine List.find?_eq_none.2 fun y hy => ?_
  simp only [decide_eq_true_eq]
  rintro rfl
  exact h (List.mem_map.2 ⟨y, hy, rfl⟩)

theorem named_isSome {key : α → κ} {l : List α} {k : κ} (h : k ∈ l.map key) :
    ∃ y, named key l k = some y := by
  obtain ⟨y, hy, e⟩ := List.mem_map.1 h
  cases hf : named key l k with
  | some y => exact ⟨y, rfl⟩
  | none => exact absurd (List.find?_eq_none.1 hf y hy) (by simp [e])

theorem mem_of_named {key : α → κ} {l : List α} {k : κ} {y : α} (h : named key l k = some y) :
    k ∈ l.map key :=
  List.mem_map.2 ⟨y, List.mem_of_find?_eq_some h, named_key h⟩

theorem overlay_head_key (key : α → κ) (b : List α) (x : α) :
    key ((named key b (key x)).getD x) = key x := by
  cases h : named key b (key x) with
  | none => rfl
  | some y => exact named_key h

theorem overlay_keys (key : α → κ) (b : List α) (seen : List κ) (a : List α) :
    (overlay key b seen a).map key = a.map key := by
  induction a generalizing seen with
  | nil => rfl
  | cons x xs ih =>
    simp only [overlay, List.map_cons, ih]
    congr 1
    split
    · rfl
    · exact overlay_head_key key b x

theorem overlay_congr (key : α → κ) (b : List α) {s s' : List κ} {a : List α}
    (h : ∀ x ∈ a, key x ∈ s ↔ key x ∈ s') : overlay key b s a = overlay key b s' a := by
  induction a generalizing s s' with
  | nil => rfl
  | cons x xs ih =>
    simp only [overlay]
    have hx := h x (by simp)
    rw [ih (s := key x :: s) (s' := key x :: s') fun y hy => by
      simp only [List.mem_cons, h y (by simp [hy])]]
    simp only [hx]

theorem overlay_append (key : α → κ) (b : List α) (s : List κ) (a a' : List α) :
    overlay key b s (a ++ a') = overlay key b s a ++ overlay key b (a.map key ++ s) a' := by
  induction a generalizing s with
  | nil => rfl
  | cons x xs ih =>
    simp only [List.cons_append, overlay, ih, List.map_cons]
    congr 2
    apply overlay_congr
    intro y _
    simp only [List.mem_append, List.mem_cons]
    exact or_left_comm

theorem named_overlay (key : α → κ) (b : List α) (s : List κ) (a : List α) {k : κ} (hk : k ∉ s) :
    named key (overlay key b s a) k =
      if k ∈ a.map key then (named key b k).or (named key a k) else none := by
  induction a generalizing s with
  | nil => rfl
  | cons x xs ih =>
    simp only [overlay]
    by_cases hx : key x = k
    · have hs : key x ∉ s := by rw [hx]; exact hk
      rw [if_neg hs, if_pos (by simp [hx])]
      have h1 : named key (((named key b (key x)).getD x) :: overlay key b (key x :: s) xs) k =
          some ((named key b (key x)).getD x) :=
        List.find?_cons_of_pos (by simp only [overlay_head_key, decide_eq_true_eq]; exact hx)
      have h2 : named key (x :: xs) k = some x :=
        List.find?_cons_of_pos (by simp only [decide_eq_true_eq]; exact hx)
      rw [h2]
      refine h1.trans ?_
      rw [hx]
      cases named key b k <;> rfl
    · have h1 : ∀ z, key z = key x → ∀ l, named key (z :: l) k = named key l k := by
        intro z hz l
        exact List.find?_cons_of_neg (by simp only [decide_eq_true_eq, hz]; exact hx)
      rw [h1 _ (by
        split
        · rfl
        · exact overlay_head_key key b x)]
      rw [ih _ (by simp only [List.mem_cons, not_or]; exact ⟨fun e => hx e.symm, hk⟩), h1 x rfl]
      have : k ∈ (x :: xs).map key ↔ k ∈ xs.map key := by
        simp only [List.map_cons, List.mem_cons]
        exact or_iff_right fun e => hx e.symm
      simp only [this]

/-- In the merge a name has the second list's first entry, if there is one. -/
theorem named_merge (key : α → κ) (a b : List α) (k : κ) :
    named key (merge key a b) k = (named key b k).or (named key a k) := by
  have e1 : named key (merge key a b) k = (named key (overlay key b [] a) k).or
      (named key (b.filter fun y => key y ∉ a.map key) k) := List.find?_append
  rw [e1, named_overlay key b [] a (by simp)]
  by_cases ha : k ∈ a.map key
  · rw [if_pos ha]
    obtain ⟨y, hy⟩ := named_isSome ha
    rw [hy]
    cases named key b k <;> rfl
  · rw [if_neg ha, named_none ha, Option.or_none, Option.none_or]
    show List.find? _ _ = List.find? _ _
    rw [List.find?_filter]
    congr 1
    funext y
    by_cases hy : key y = k
    · simp [hy, ha]
    · simp [hy]

theorem merge_keys_mem (key : α → κ) (a b : List α) (k : κ) :
    k ∈ (merge key a b).map key ↔ k ∈ a.map key ∨ k ∈ b.map key := by
  rw [merge, List.map_append, overlay_keys, List.mem_append]
  constructor
  · rintro (h | h)
    · exact .inl h
    · obtain ⟨y, hy, e⟩ := List.mem_map.1 h
      exact .inr (List.mem_map.2 ⟨y, (List.mem_filter.1 hy).1, e⟩)
  · intro h
    by_cases ha : k ∈ a.map key
    · exact .inl ha
    · rcases h with h | h
      · exact absurd h ha
      · obtain ⟨y, hy, e⟩ := List.mem_map.1 h
        exact .inr (List.mem_map.2 ⟨y, List.mem_filter.2 ⟨hy, by simp only [e, decide_eq_true_eq]; exact ha⟩, e⟩)

theorem overlay_self (key : α → κ) (pre l : List α) :
    overlay key (pre ++ l) (pre.map key) l = l := by
  induction l generalizing pre with
  | nil => rfl
  | cons x xs ih =>
    simp only [overlay]
    have h := ih (pre ++ [x])
    rw [List.append_assoc, List.singleton_append] at h
    rw [overlay_congr key (pre ++ x :: xs) (s' := (pre ++ [x]).map key) (by simp [or_comm]), h]
    congr 1
    split
    · rfl
    · rename_i hx
      rw [List.find?_append]
      have h1 : List.find? (fun y => decide (key y = key x)) pre = none := named_none hx
      rw [h1, Option.none_or, List.find?_cons_of_pos (by simp)]
      rfl

/-- Merging a list with itself changes nothing. -/
theorem merge_self (key : α → κ) (l : List α) : merge key l l = l := by
  have h := overlay_self key [] l
  rw [List.nil_append, List.map_nil] at h
  rw [merge, h]
  have : (l.filter fun y => key y ∉ l.map key) = [] := by
    rw [List.filter_eq_nil_iff]
    intro x hx
    simp only [decide_eq_true_eq, Classical.not_not]
    exact List.mem_map.2 ⟨x, hx, rfl⟩
  rw [this, List.append_nil]

theorem overlay_nil (key : α → κ) (s : List κ) (l : List α) : overlay key [] s l = l := by
  induction l generalizing s with
  | nil => rfl
  | cons x xs ih => simp [overlay, ih]

theorem merge_nil (key : α → κ) (l : List α) : merge key l [] = l := by
  simp [merge, overlay_nil]

theorem nil_merge (key : α → κ) (l : List α) : merge key [] l = l := by
  simp only [merge, overlay, List.nil_append, List.map_nil, List.not_mem_nil, not_false_eq_true,
    decide_true]
  exact List.filter_eq_self.2 fun _ _ => rfl

theorem overlay_overlay (key : α → κ) (b c : List α) (s : List κ) (a : List α) :
    overlay key c s (overlay key b s a) = overlay key (merge key b c) s a := by
  induction a generalizing s with
  | nil => rfl
  | cons x xs ih =>
    by_cases hx : key x ∈ s
    · simp only [overlay, hx, if_true, ih]
    · simp only [overlay, hx, if_false]
      have hk := overlay_head_key key b x
      simp only [hk, hx, if_false, ih]
      congr 1
      have := named_merge key b c (key x)
      simp only [named] at this
      rw [this]
      cases List.find? (fun y => decide (key y = key x)) c <;> rfl

theorem overlay_filter (key : α → κ) (c : List α) (A : List κ) (s s' : List κ) (b : List α)
    (h : ∀ k, k ∉ A → (k ∈ s' ↔ k ∈ s)) :
    (overlay key c s b).filter (fun y => key y ∉ A) =
      overlay key c s' (b.filter fun y => key y ∉ A) := by
  induction b generalizing s s' with
  | nil => rfl
  | cons x xs ih =>
    simp only [overlay]
    have hk : key (if key x ∈ s then x else (named key c (key x)).getD x) = key x := by
      split
      · rfl
      · exact overlay_head_key key c x
    by_cases hx : key x ∈ A
    · rw [List.filter_cons_of_neg (by
        simp only [decide_eq_true_eq]; intro h; exact h (hk.symm ▸ hx)),
        List.filter_cons_of_neg (by simp only [decide_eq_true_eq]; exact fun h => h hx)]
      refine ih _ _ fun k hkA => ?_
      rw [h k hkA, List.mem_cons]
      exact (or_iff_right fun e : k = key x => hkA (e ▸ hx)).symm
    · rw [List.filter_cons_of_pos (by
        simp only [decide_eq_true_eq]; rw [hk]; exact hx),
        List.filter_cons_of_pos (by simp only [decide_eq_true_eq]; exact hx)]
      simp only [overlay]
      have e : (key x ∈ s') = (key x ∈ s) := propext (h _ hx)
      rw [ih (key x :: s) (key x :: s') fun k hkA => by
        simp only [List.mem_cons, h k hkA]]
      simp only [e]

/-- Merging three lists: the order of the two merges does not matter. -/
theorem merge_assoc (key : α → κ) (a b c : List α) :
    merge key (merge key a b) c = merge key a (merge key b c) := by
  have hL : merge key (merge key a b) c =
      overlay key c [] (overlay key b [] a ++ b.filter fun y => key y ∉ a.map key) ++
        c.filter fun y => key y ∉ (merge key a b).map key := rfl
  have hR : merge key a (merge key b c) = overlay key (merge key b c) [] a ++
      (overlay key c [] b ++ c.filter fun y => key y ∉ b.map key).filter
        fun y => key y ∉ a.map key := rfl
  rw [hL, hR, overlay_append, overlay_overlay, overlay_keys, List.append_nil, List.append_assoc,
    List.filter_append]
  congr 1
  congr 1
  · refine (overlay_filter key c (a.map key) [] (a.map key) b fun k hk => ?_).symm
    simp only [hk, List.not_mem_nil]
  · rw [List.filter_filter]
    apply List.filter_congr
    intro y _
    rw [← Bool.decide_and]
    apply decide_eq_decide.2
    rw [merge_keys_mem, not_or]

theorem common_self (key : α → κ) (l : List α) : common key l l = l :=
  List.filter_eq_self.2 fun x hx => by
    simp only [decide_eq_true_eq]; exact List.mem_map.2 ⟨x, hx, rfl⟩

theorem common_keys (key : α → κ) (a b : List α) (k : κ) :
    k ∈ (common key a b).map key ↔ k ∈ a.map key ∧ k ∈ b.map key := by
  simp only [common, List.mem_map, List.mem_filter, decide_eq_true_eq]
  constructor
  · rintro ⟨y, ⟨h1, x, h2, h3⟩, rfl⟩
    exact ⟨⟨x, h2, h3⟩, y, h1, rfl⟩
  · rintro ⟨⟨x, h1, h2⟩, y, h3, rfl⟩
    exact ⟨y, ⟨h3, x, h1, h2⟩, rfl⟩

/-- Intersecting three lists: the order does not matter. -/
theorem common_assoc (key : α → κ) (a b c : List α) :
    common key (common key a b) c = common key a (common key b c) := by
  show c.filter (fun y => key y ∈ (common key a b).map key) =
    (c.filter fun y => key y ∈ b.map key).filter fun y => key y ∈ a.map key
  rw [List.filter_filter]
  apply List.filter_congr
  intro y _
  rw [← Bool.decide_and]
  apply decide_eq_decide.2
  rw [common_keys]

/-- A test that agrees on entries of one name can be made before or after merging. -/
theorem merge_filter (key : α → κ) (p : α → Bool) (a b : List α)
    (h : ∀ x ∈ a ++ b, ∀ y ∈ a ++ b, key x = key y → p x = p y) :
    (merge key a b).filter p = merge key (a.filter p) (b.filter p) := by
  have gen : ∀ (s s' : List κ) (l : List α), (∀ x ∈ l, x ∈ a ++ b) →
      (∀ x ∈ l, p x = true → (key x ∈ s' ↔ key x ∈ s)) →
      (overlay key b s l).filter p = overlay key (b.filter p) s' (l.filter p) := by
    intro s s' l
    induction l generalizing s s' with
    | nil => intros; rfl
    | cons x xs ih =>
      intro hl hs
      have hx := hl x (by simp)
      have hf : ∀ y, named key b (key x) = some y → p y = p x := by
        intro y hy
        exact h y (List.mem_append_right _ (List.mem_of_find?_eq_some hy)) x hx (named_key hy)
      have hp : p (if key x ∈ s then x else (named key b (key x)).getD x) = p x := by
        split
        · rfl
        · cases hn : named key b (key x) with
          | none => rfl
          | some y => exact hf y hn
      simp only [overlay]
      by_cases hpx : p x = true
      · rw [List.filter_cons_of_pos (by rw [hp]; exact hpx), List.filter_cons_of_pos hpx]
        simp only [overlay]
        have e : (key x ∈ s') = (key x ∈ s) := propext (hs x (by simp) hpx)
        rw [ih (key x :: s) (key x :: s') (fun y hy => hl y (by simp [hy])) fun y hy hpy => by
          simp only [List.mem_cons, hs y (by simp [hy]) hpy]]
        simp only [e]
        congr 2
        rw [List.find?_filter]
        have : ∀ l' : List α, (∀ y ∈ l', y ∈ b) →
            l'.find? (fun y => decide (key y = key x)) =
              l'.find? (fun y => decide (p y = true ∧ decide (key y = key x) = true)) := by
          intro l'
          induction l' with
          | nil => intros; rfl
          | cons z zs ihz =>
            intro hz
            simp only [List.find?_cons]
            rw [ihz fun y hy => hz y (by simp [hy])]
            by_cases hk : key z = key x
            · have := h z (List.mem_append_right _ (hz z (by simp))) x hx hk
              simp [hk, this, hpx]
            · simp [hk]
        rw [this b fun _ hy => hy]
      · rw [List.filter_cons_of_neg (by rw [hp]; exact hpx), List.filter_cons_of_neg hpx]
        refine ih _ _ (fun y hy => hl y (by simp [hy])) fun y hy hpy => ?_
        rw [hs y (by simp [hy]) hpy, List.mem_cons]
        refine (or_iff_right fun e => hpx ?_).symm
        rw [h x hx y (hl y (by simp [hy])) e.symm]; exact hpy
  rw [merge, List.filter_append, merge,
    gen [] [] a (fun x hx => List.mem_append_left _ hx) fun _ _ _ => Iff.rfl]
  congr 1
  rw [List.filter_filter, List.filter_filter]
  apply List.filter_congr
  intro y hy
  by_cases hpy : p y = true
  · rw [hpy, Bool.true_and, Bool.and_true]
    apply decide_eq_decide.2
    simp only [List.mem_map, List.mem_filter]
    constructor
    · rintro hn ⟨x, ⟨h1, -⟩, h3⟩
      exact hn ⟨x, h1, h3⟩
    · rintro hn ⟨x, h1, h3⟩
      refine hn ⟨x, ⟨h1, ?_⟩, h3⟩
      rw [h x (List.mem_append_left _ h1) y (List.mem_append_right _ hy) h3]; exact hpy
  · simp only [Bool.not_eq_true] at hpy
    rw [hpy, Bool.false_and, Bool.and_false]

end Comps.Spec

namespace Comps.Spec
open Comps.Obj Comps.CSet
variable {α κ : Type} [DecidableEq κ]

theorem add_key {eqf : α → α → Bool} {key : α → κ} (hk : ByKey eqf key) (s : List α) (x : α) :
    add eqf s x = if key x ∈ s.map key then s else s ++ [x] := by
  unfold add
  by_cases h : key x ∈ s.map key
  · obtain ⟨y, hy, e⟩ := List.mem_map.1 h
    rw [if_pos ((mem_iff _ _ _).2 ⟨y, hy, (hk _ _).2 e⟩), if_pos h]
  · rw [if_neg (fun hm => ?_), if_neg h]
    obtain ⟨y, hy, e⟩ := (mem_iff _ _ _).1 hm
    exact h (List.mem_map.2 ⟨y, hy, (hk _ _).1 e⟩)

theorem addAll_keys {eqf : α → α → Bool} {key : α → κ} (hk : ByKey eqf key) (l s : List α) (k : κ) :
    k ∈ (l.foldl (add eqf) s).map key ↔ k ∈ s.map key ∨ k ∈ l.map key := by
  induction l generalizing s with
  | nil => simp
  | cons x xs ih =>
    rw [List.foldl_cons, ih, add_key hk]
    split
    · rename_i h
      simp only [List.map_cons, List.mem_cons]
      constructor
      · rintro (h1 | h1)
        · exact .inl h1
        · exact .inr (.inr h1)
      · rintro (h1 | h1 | h1)
        · exact .inl h1
        · exact .inl (h1 ▸ h)
        · exact .inr h1
    · simp only [List.map_append, List.mem_append, List.map_cons, List.map_nil, List.mem_cons,
        List.not_mem_nil, or_false, or_assoc]

theorem addAll_unique {eqf : α → α → Bool} {key : α → κ} (hk : ByKey eqf key) (l s : List α)
    (hs : UniqueNames key s) : UniqueNames key (l.foldl (add eqf) s) := by
  induction l generalizing s with
  | nil => exact hs
  | cons x xs ih =>
    refine ih _ ?_
    rw [add_key hk]
    split
    · exact hs
    · rename_i h
      unfold UniqueNames
      rw [List.map_append, List.nodup_append]
      refine ⟨hs, by simp, fun a ha b hb e => ?_⟩
      rw [List.map_singleton, List.mem_singleton] at hb
      rw [e, hb] at ha
      exact h ha

theorem addAll_same {eqf : α → α → Bool} {key : α → κ} (hk : ByKey eqf key) (l s : List α)
    (h : UniqueNames key (s ++ l)) : l.foldl (add eqf) s = s ++ l := by
  induction l generalizing s with
  | nil => simp
  | cons x xs ih =>
    rw [List.foldl_cons, add_key hk, if_neg, ih, List.append_assoc, List.singleton_append]
    · rw [List.append_assoc, List.singleton_append]; exact h
    · unfold UniqueNames at h
      rw [List.map_append, List.nodup_append] at h
      exact fun hx => h.2.2 _ hx _ (by simp) rfl

/-- Keeping one entry per name changes nothing if no two have one name. -/
theorem unique_of_names {eqf : α → α → Bool} {key : α → κ} (hk : ByKey eqf key) {l : List α}
    (h : UniqueNames key l) : unique eqf l = l := addAll_same hk l [] h

theorem addAll_filter {eqf : α → α → Bool} {key : α → κ} (hk : ByKey eqf key) (p : κ → Prop)
    [DecidablePred p] (l s : List α) :
    (l.foldl (add eqf) s).filter (fun x => p (key x)) =
      (l.filter fun x => p (key x)).foldl (add eqf) (s.filter fun x => p (key x)) := by
  induction l generalizing s with
  | nil => rfl
  | cons x xs ih =>
    rw [List.foldl_cons, ih, add_key hk]
    by_cases hp : p (key x)
    · rw [List.filter_cons_of_pos (by simpa using hp), List.foldl_cons, add_key hk]
      have e : key x ∈ (s.filter fun x => decide (p (key x))).map key ↔ key x ∈ s.map key := by
        simp only [List.mem_map, List.mem_filter, decide_eq_true_eq]
        constructor
        · rintro ⟨y, ⟨h1, -⟩, h3⟩
          exact ⟨y, h1, h3⟩
        · rintro ⟨y, h1, h3⟩
          exact ⟨y, ⟨h1, h3 ▸ hp⟩, h3⟩
      by_cases h : key x ∈ s.map key
      · rw [if_pos h, if_pos (e.2 h)]
      · rw [if_neg h, if_neg fun hx => h (e.1 hx), List.filter_append,
          List.filter_cons_of_pos (by simpa using hp), List.filter_nil]
    · rw [List.filter_cons_of_neg (by simpa using hp)]
      split
      · rfl
      · rw [List.filter_append, List.filter_cons_of_neg (by simpa using hp), List.filter_nil,
          List.append_nil]

/-- Intersecting three lists and keeping one entry per name: the order does not matter. -/
theorem unique_common_assoc {eqf : α → α → Bool} {key : α → κ} (hk : ByKey eqf key) (a b c : List α) :
    unique eqf (common key (unique eqf (common key a b)) c) =
      unique eqf (common key a (unique eqf (common key b c))) := by
  have h1 : common key (unique eqf (common key a b)) c = common key (common key a b) c := by
    unfold common unique
    apply List.filter_congr
    intro y _
    apply decide_eq_decide.2
    rw [addAll_keys hk]
    simp
  have h2 : common key a (unique eqf (common key b c)) =
      unique eqf (common key a (common key b c)) :=
    addAll_filter hk (fun k => k ∈ a.map key) (common key b c) []
  rw [h1, h2, common_assoc]
  exact (unique_of_names hk (addAll_unique hk _ [] List.nodup_nil)).symm

end Comps.Spec
