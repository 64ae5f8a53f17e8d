import Verif.Lemmas.DocLaws

/-! # Lemmas: laws of intersecting lists of entries with ids -/

namespace Comps.Obj
open Comps Comps.Spec Comps.CSet
variable {α κ : Type} [DecidableEq κ] {eqf : α → α → Bool} {key : α → κ}
  {common : α → α → Res α} {P : α → Prop} {R : α → α → Prop}

/-- Two entries of one id have an intersection, of that id; the grouping of three does not matter. -/
structure CommonLaws (key : α → κ) (common : α → α → Res α) (P : α → Prop) (R : α → α → Prop) :
    Prop where
  total : ∀ y x, P y → P x → key y = key x → ∃ r, common y x = .ok r ∧ P r ∧ key r = key y
  assoc : ∀ x y z xy yz l r, P x → P y → P z → common x y = .ok xy → common xy z = .ok l →
    common y z = .ok yz → common x yz = .ok r → R l r

/-- The entry an entry of the second list gives. -/
def shared (key : α → κ) (common : α → α → Res α) (a : List α) (y : α) : Option α :=
  (named key a (key y)).bind fun x => (common y x).toOption

theorem shared_ok (hL : CommonLaws key common P R) {a : List α} (ha : ∀ x ∈ a, P x) {y : α} (hy : P y) :
    (named key a (key y) = none ∧ shared key common a y = none) ∨
    ∃ x r, named key a (key y) = some x ∧ P x ∧ key x = key y ∧ common y x = .ok r ∧ P r ∧
      key r = key y ∧ shared key common a y = some r := by
  cases hn : named key a (key y) with
  | none => exact .inl ⟨rfl, by simp [shared, hn]⟩
  | some x =>
    have h1 := ha x (List.mem_of_find?_eq_some hn)
    have h2 : key x = key y := named_key hn
    obtain ⟨r, h3, h4, h5⟩ := hL.total y x hy h1 h2.symm
    exact .inr ⟨x, r, rfl, h1, h2, h3, h4, h5, by simp [shared, hn, h3, Except.toOption]⟩

theorem docIntersectList_shared (hk : ByKey eqf key) (hL : CommonLaws key common P R) {a b : List α}
    (ha : ∀ x ∈ a, P x) (hb : ∀ x ∈ b, P x) :
    docIntersectList eqf common a b = .ok (b.filterMap (shared key common a)) := by
  have htr : ∀ a b c, eqf a b = true → eqf b c = true → eqf a c = true :=
    fun a b c h1 h2 => (hk _ _).2 (((hk _ _).1 h1).trans ((hk _ _).1 h2))
  have hfind : ∀ y, dataAt eqf (a.foldl (add eqf) []) y = named key a (key y) := by
    intro y
    rw [dataAt_or, find_foldl_add htr, List.nil_append]
    unfold named
    congr 1
    funext x
    rw [Bool.eq_iff_iff, hk, decide_eq_true_iff]
  have gen : ∀ (b acc : List α), (∀ x ∈ b, P x) →
      b.foldlM (fun acc y =>
        match dataAt eqf (a.foldl (add eqf) []) y with
        | some x => do return acc ++ [← common y x]
        | none => .ok acc) acc = Except.ok (acc ++ b.filterMap (shared key common a)) := by
    intro b
    induction b with
    | nil => intro acc _; simp [pure, Except.pure]
    | cons y ys ih =>
      intro acc hb
      rw [List.foldlM_cons, hfind]
      have ih' := fun acc => ih acc fun x hx => hb x (by simp [hx])
      rcases shared_ok hL ha (hb y (by simp)) with ⟨h1, h2⟩ | ⟨x, r, h1, -, -, h3, -, -, h4⟩
      · rw [List.filterMap_cons_none h2, h1]
        exact ih' acc
      · rw [List.filterMap_cons_some h4, h1]
        simp only [h3, bind, Except.bind, pure, Except.pure]
        rw [show acc ++ r :: ys.filterMap (shared key common a) =
          (acc ++ [r]) ++ ys.filterMap (shared key common a) by simp]
        exact ih' (acc ++ [r])
  exact gen b [] hb

theorem shared_mem (hL : CommonLaws key common P R) {a b : List α} (ha : ∀ x ∈ a, P x)
    (hb : ∀ x ∈ b, P x) : ∀ x ∈ b.filterMap (shared key common a), P x := by
  intro x hx
  obtain ⟨y, hy, h⟩ := List.mem_filterMap.1 hx
  rcases shared_ok hL ha (hb y hy) with ⟨-, h2⟩ | ⟨_, r, -, -, -, -, h3, -, h4⟩
  · rw [h2] at h; cases h
  · rw [h4] at h; cases h; exact h3

theorem named_shared (hL : CommonLaws key common P R) {a b : List α} (ha : ∀ x ∈ a, P x)
    (hb : ∀ x ∈ b, P x) (k : κ) : named key (b.filterMap (shared key common a)) k =
      (named key b k).bind (shared key common a) := by
  induction b with
  | nil => rfl
  | cons y ys ih =>
    have ih' := ih fun x hx => hb x (by simp [hx])
    have hcons : ∀ (z : α) (l : List α), named key (z :: l) k =
        if key z = k then some z else named key l k := by
      intro z l
      unfold named
      rw [List.find?_cons]
      by_cases h : key z = k <;> simp [h]
    rw [hcons y ys]
    rcases shared_ok hL ha (hb y (by simp)) with ⟨h1, h2⟩ | ⟨x, r, h1, -, -, -, -, h3, h4⟩
    · rw [List.filterMap_cons_none h2, ih']
      by_cases h : key y = k
      · rw [if_pos h, Option.bind_some, h2]
        cases hy : named key ys k with
        | none => rfl
        | some z =>
          have hz : key z = key y := (named_key hy).trans h.symm
          rw [Option.bind_some]
          simp [shared, hz, h1]
      · rw [if_neg h]
    · rw [List.filterMap_cons_some h4, hcons, h3, ih']
      by_cases h : key y = k
      · rw [if_pos h, if_pos h, Option.bind_some, h4]
      · rw [if_neg h, if_neg h]

/-- Related members, or none, at each place. -/
theorem alike_filterMap {β : Type} {f g : β → Option α} {l : List β}
    (h : ∀ y ∈ l, (f y = none ∧ g y = none) ∨ ∃ u v, f y = some u ∧ g y = some v ∧ R u v) :
    Alike R (l.filterMap f) (l.filterMap g) := by
  induction l with
  | nil => exact ⟨rfl, by simp⟩
  | cons y ys ih =>
    obtain ⟨i1, i2⟩ := ih fun z hz => h z (by simp [hz])
    rcases h y (by simp) with ⟨h1, h2⟩ | ⟨u, v, h1, h2, h3⟩
    · rw [List.filterMap_cons_none h1, List.filterMap_cons_none h2]; exact ⟨i1, i2⟩
    · rw [List.filterMap_cons_some h1, List.filterMap_cons_some h2]
      refine ⟨by simp [i1], fun i x z hx hz => ?_⟩
      cases i with
      | zero => simp at hx hz; subst hx; subst hz; exact h3
      | succ i => simp at hx hz; exact i2 i x z hx hz

/-- Whichever two of three lists are intersected first, the result is alike. -/
theorem docIntersectList_assoc (hk : ByKey eqf key) (hL : CommonLaws key common P R)
    {a b c : List α} (ha : ∀ x ∈ a, P x) (hb : ∀ x ∈ b, P x) (hc : ∀ x ∈ c, P x) :
    ∃ ab bc l r, docIntersectList eqf common a b = .ok ab ∧ docIntersectList eqf common ab c = .ok l ∧
      docIntersectList eqf common b c = .ok bc ∧ docIntersectList eqf common a bc = .ok r ∧
      Alike R r l := by
  have hab := shared_mem hL ha hb
  have hbc := shared_mem hL hb hc
  refine ⟨_, _, _, _, docIntersectList_shared hk hL ha hb, docIntersectList_shared hk hL hab hc,
    docIntersectList_shared hk hL hb hc, docIntersectList_shared hk hL ha hbc, ?_⟩
  rw [List.filterMap_filterMap]
  refine alike_filterMap fun y hy => ?_
  have hpy := hc y hy
  have hn := named_shared hL ha hb (key y)
  rcases shared_ok hL hb hpy with ⟨h1, h2⟩ | ⟨x, r, h1, p1, k1, c1, p2, k2, h2⟩
  · refine .inl ⟨by rw [h2]; rfl, ?_⟩
    simp only [shared] at hn ⊢
    rw [hn, h1]; rfl
  · rw [h2, Option.bind_some]
    rcases shared_ok hL ha p1 with ⟨h3, h4⟩ | ⟨w, q, h3, p3, k3, c3, p4, k4, h4⟩
    · refine .inl ⟨?_, ?_⟩
      · rw [k1] at h3
        simp only [shared]
        rw [k2, h3]; rfl
      · rw [h1, Option.bind_some, h4] at hn
        simp only [shared] at hn ⊢
        rw [hn]; rfl
    · rw [h1, Option.bind_some, h4] at hn
      obtain ⟨u, cu, -, -⟩ := hL.total y q hpy p4 (by rw [k4, k1])
      obtain ⟨v, cv, -, -⟩ := hL.total r w p2 p3 (by rw [k2, k3, k1])
      rw [k1] at h3
      refine .inr ⟨v, u, ?_, ?_, hL.assoc y x w r q v u hpy p1 p3 c1 cv c3 cu⟩
      · simp only [shared]
        rw [k2, h3]; simp [cv, Except.toOption]
      · simp only [shared] at hn ⊢
        rw [hn]; simp [cu, Except.toOption]

/-- Distinct ids: each entry is intersected with itself. -/
theorem docIntersectList_self (hk : ByKey eqf key) (hL : CommonLaws key common P R) {a : List α}
    (ha : ∀ x ∈ a, P x) (ua : UniqueNames key a) {S : α → α → Prop}
    (hs : ∀ x ∈ a, ∀ r, common x x = .ok r → S r x) :
    ∃ l, docIntersectList eqf common a a = .ok l ∧ Alike S l a := by
  refine ⟨_, docIntersectList_shared hk hL ha ha, ?_⟩
  have hall : Alike S (a.filterMap (shared key common a)) (a.filterMap some) := by
    refine alike_filterMap fun y hy => ?_
    rcases shared_ok hL ha (ha y hy) with ⟨h1, -⟩ | ⟨x, r, h1, -, k1, c1, -, -, h2⟩
    · obtain ⟨z, hz⟩ := named_isSome (key := key) (List.mem_map.2 ⟨y, hy, rfl⟩)
      rw [h1] at hz; cases hz
    · have hxy : x = y := by
        have hx := List.mem_of_find?_eq_some h1
        obtain ⟨i, hi, e1⟩ := List.mem_iff_getElem.1 hx
        obtain ⟨j, hj, e2⟩ := List.mem_iff_getElem.1 hy
        have hp := List.pairwise_iff_getElem.1 ua
        rcases Nat.lt_trichotomy i j with h | h | h
        · have hne := hp i j (by simpa) (by simpa) h
          simp only [List.getElem_map, e1, e2] at hne
          exact absurd k1 hne
        · subst h; exact e1.symm.trans e2
        · have hne := hp j i (by simpa) (by simpa) h
          simp only [List.getElem_map, e1, e2] at hne
          exact absurd k1.symm hne
      subst hxy
      exact .inr ⟨r, x, h2, rfl, hs x hy r c1⟩
  simpa using hall

end Comps.Obj
