import Verif.Lemmas.CSet
import Verif.Spec.Equiv

/-!
# Properties of sets (C16 - C18)
-/

namespace Comps.Props
open Comps Comps.Spec Comps.CSet

variable {α : Type}

/-- A call on a set. -/
inductive SetOp (α : Type) where
  | add (x : α)
  | remove (x : α)
  | clear

/-- The set after a call. -/
def SetOp.run (eqf : α → α → Bool) (s : List α) : SetOp α → List α
  | .add x => CSet.add eqf s x
  | .remove x => (CSet.remove eqf s x).1
  | .clear => CSet.clear s

/-- The set after a history of calls on an empty set. -/
def setAfter (eqf : α → α → Bool) (ops : List (SetOp α)) : List α :=
  ops.foldl (SetOp.run eqf) []

theorem remove_spec (eqf : α → α → Bool) (s : List α) (x : α) :
    (∃ pre y post, s = pre ++ y :: post ∧ (∀ z ∈ pre, eqf z x = false) ∧ eqf y x = true ∧
      remove eqf s x = (pre ++ post, some y)) ∨
    ((∀ z ∈ s, eqf z x = false) ∧ remove eqf s x = (s, none)) := by
  induction s with
  | nil => right; simp [remove]
  | cons z zs ih =>
    by_cases h : eqf z x = true
    · left
      exact ⟨[], z, zs, rfl, by simp, h, by simp [remove, h]⟩
    · have h' : eqf z x = false := by simpa using h
      rcases ih with ⟨pre, y, post, e, h1, h2, h3⟩ | ⟨h1, h2⟩
      · left
        refine ⟨z :: pre, y, post, by simp [e], ?_, h2, by simp [remove, h', h3]⟩
        intro w hw
        rcases List.mem_cons.1 hw with rfl | hw
        · exact h'
        · exact h1 w hw
      · right
        refine ⟨?_, by simp [remove, h', h2]⟩
        intro w hw
        rcases List.mem_cons.1 hw with rfl | hw
        · exact h'
        · exact h1 w hw

/-- C16: after every history of calls, no member equals a later member. -/
theorem C16_unique (eqf : α → α → Bool) (ops : List (SetOp α)) :
    (setAfter eqf ops).Pairwise fun a b => eqf a b = false := by
  have : ∀ (ops : List (SetOp α)) (s : List α), Uniq eqf s →
      Uniq eqf (ops.foldl (SetOp.run eqf) s) := by
    intro ops
    induction ops with
    | nil => intro s h; exact h
    | cons o os ih =>
      intro s h
      refine ih _ ?_
      cases o with
      | add x => exact add_uniq h x
      | remove x =>
        rcases remove_spec eqf s x with ⟨pre, y, post, e, -, -, h3⟩ | ⟨-, h2⟩
        · simp only [SetOp.run, h3]
          subst e
          refine h.sublist ?_
          exact List.Sublist.append_left (List.sublist_cons_self _ _) _
        · simpa only [SetOp.run, h2] using h
      | clear => exact List.Pairwise.nil
  exact this ops [] List.Pairwise.nil

/-- C16: add reports 1 exactly for an absent member and then stores it at the end; it reports 0
for a present one and changes nothing.  Afterwards the member is found (for reflexive `eqf`). -/
theorem C16_add (eqf : α → α → Bool) (s : List α) (x : α) :
    (addRet eqf s x = 1 ↔ ¬ In eqf s x) ∧ (addRet eqf s x = 0 ↔ In eqf s x) ∧
    (¬ In eqf s x → add eqf s x = s ++ [x]) ∧ (In eqf s x → add eqf s x = s) ∧
    (eqf x x = true → In eqf (add eqf s x) x) := by
  have hm : mem eqf s x = true ↔ In eqf s x := mem_iff eqf s x
  unfold addRet add
  by_cases h : In eqf s x
  · simp [hm.2 h, h]
  · have : mem eqf s x = false := by
      cases hc : mem eqf s x with
      | false => rfl
      | true => exact absurd (hm.1 hc) h
    simp only [this, Bool.false_eq_true, if_false, h, not_false_eq_true, iff_true, iff_false,
      true_and, false_implies, forall_const]
    refine ⟨by decide, fun hx => ⟨x, by simp, hx⟩⟩

/-- C16: membership test, index and lookup agree with the members. -/
theorem C16_lookup (eqf : α → α → Bool) (s : List α) (x : α) :
    (mem eqf s x = true ↔ In eqf s x) ∧
    (∀ i, at? eqf s x = some i → ∃ y, s[i]? = some y ∧ dataAt eqf s x = some y ∧ eqf y x = true) ∧
    (at? eqf s x = none ↔ ¬ In eqf s x) ∧ (dataAt eqf s x = none ↔ ¬ In eqf s x) := by
  refine ⟨mem_iff eqf s x, ?_, ?_, ?_⟩
  · intro i hi
    induction s generalizing i with
    | nil => simp [at?] at hi
    | cons y ys ih =>
      simp only [at?] at hi
      cases h : eqf y x with
      | true =>
        simp only [h, if_true, Option.some.injEq] at hi
        subst hi
        exact ⟨y, by simp, by simp [dataAt, h], h⟩
      | false =>
        simp only [h, Bool.false_eq_true, if_false] at hi
        cases ha : at? eqf ys x with
        | none => simp [ha] at hi
        | some j =>
          simp only [ha, Option.map_some, Option.some.injEq] at hi
          subst hi
          obtain ⟨z, h1, h2, h3⟩ := ih j ha
          exact ⟨z, by simpa using h1, by simpa [dataAt, h] using h2, h3⟩
  · rw [at?_none]; simp [In]
  · induction s with
    | nil => simp [dataAt, In]
    | cons y ys ih =>
      simp only [dataAt]
      cases h : eqf y x with
      | true => simp [In, h]
      | false =>
        have : In eqf (y :: ys) x ↔ In eqf ys x := by simp [In, h]
        rw [this, ← ih]
        simp

/-- C16: remove takes out the first match and returns it; without match it changes nothing. -/
theorem C16_remove (eqf : α → α → Bool) (s : List α) (x : α) :
    (In eqf s x → ∃ pre y post, s = pre ++ y :: post ∧ (∀ z ∈ pre, eqf z x = false) ∧
      eqf y x = true ∧ remove eqf s x = (pre ++ post, some y)) ∧
    (¬ In eqf s x → remove eqf s x = (s, none)) := by
  rcases remove_spec eqf s x with h | ⟨h1, h2⟩
  · refine ⟨fun _ => h, fun hn => ?_⟩
    obtain ⟨pre, y, post, e, -, h3, -⟩ := h
    exact absurd ⟨y, by simp [e], h3⟩ hn
  · refine ⟨?_, fun _ => h2⟩
    rintro ⟨y, hy, he⟩
    rw [h1 y hy] at he
    simp at he

/-- C16: for an equivalence, a removed member is absent afterwards. -/
theorem C16_removed_absent {eqf : α → α → Bool} (he : IsEquiv eqf) (ops : List (SetOp α)) (x : α) :
    ¬ In eqf (remove eqf (setAfter eqf ops) x).1 x := by
  have hu := C16_unique eqf ops
  rcases remove_spec eqf (setAfter eqf ops) x with ⟨pre, y, post, e, h1, h2, h3⟩ | ⟨h1, h2⟩
  · rw [h3]
    rintro ⟨z, hz, hzx⟩
    rcases List.mem_append.1 hz with hz | hz
    · rw [h1 z hz] at hzx; simp at hzx
    · rw [e, List.pairwise_append, List.pairwise_cons] at hu
      have := hu.2.1.1 z hz
      rw [he.trans y x z h2 (he.symm _ _ hzx)] at this
      simp at this
  · rw [h2]
    rintro ⟨z, hz, hzx⟩
    rw [h1 z hz] at hzx; simp at hzx

/-- Equality up to the last decimal digit. -/
def eqMod (a b : Nat) : Bool := a % 10 == b % 10

theorem eqMod_equiv : IsEquiv eqMod where
  refl x := by simp [eqMod]
  symm x y h := by simp [eqMod] at *; exact h.symm
  trans x y z h1 h2 := by simp [eqMod] at *; exact h1.trans h2

example : setAfter eqMod [.add 3, .add 14, .add 13, .remove 4, .add 5] = [3, 5] := by decide
example : addRet eqMod [3, 14] 24 = 0 := (C16_add eqMod [3, 14] 24).2.1.2 ⟨14, by simp, by decide⟩
example : remove eqMod [3, 14, 5] 4 = ([3, 5], some 14) := by decide
example : ¬ In eqMod (remove eqMod (setAfter eqMod [.add 3, .add 14, .add 5]) 4).1 4 :=
  C16_removed_absent eqMod_equiv _ _

/-! ## C17 -/

theorem injAt_of_uniq {eqf : α → α → Bool} (he : IsEquiv eqf) {s1 : List α} (s2 : List α)
    (h : s1.Pairwise fun a b => eqf a b = false) : InjAt eqf s1 s2 := by
  refine h.imp ?_
  intro a b hab i ha hb
  obtain ⟨hi, h1, -⟩ := at?_some ha
  obtain ⟨_, h2, -⟩ := at?_some hb
  rw [he.trans _ _ _ (he.symm _ _ h1) h2] at hab
  simp at hab

/-- Pigeonhole up to an equivalence. -/
theorem pigeonhole_rel {eqf : α → α → Bool} (he : IsEquiv eqf) : ∀ (s1 s2 : List α),
    (s1.Pairwise fun a b => eqf a b = false) → Sub eqf s1 s2 → s1.length ≤ s2.length
  | [], _, _, _ => Nat.zero_le _
  | x :: xs, s2, hn, hs => by
    rw [List.pairwise_cons] at hn
    obtain ⟨y, hy, hyx⟩ := hs x (by simp)
    obtain ⟨pre, post, rfl⟩ := List.append_of_mem hy
    have := pigeonhole_rel he xs (pre ++ post) hn.2 (fun z hz => by
      obtain ⟨w, hw, hwz⟩ := hs z (by simp [hz])
      refine ⟨w, ?_, hwz⟩
      simp only [List.mem_append, List.mem_cons] at hw ⊢
      rcases hw with h | rfl | h
      · exact .inl h
      · exfalso
        have := hn.1 z hz
        rw [he.trans _ _ _ (he.symm _ _ hyx) hwz] at this
        simp at this
      · exact .inr h)
    simp only [List.length_append, List.length_cons] at *
    omega

theorem pigeonhole_rel_eq {eqf : α → α → Bool} (he : IsEquiv eqf) (s1 s2 : List α)
    (hn : s1.Pairwise fun a b => eqf a b = false) (hs : Sub eqf s1 s2)
    (hlen : s2.length ≤ s1.length) : Sub eqf s2 s1 := by
  intro y hy
  refine Classical.byContradiction fun hc => ?_
  obtain ⟨pre, post, rfl⟩ := List.append_of_mem hy
  have := pigeonhole_rel he s1 (pre ++ post) hn (fun z hz => by
    obtain ⟨w, hw, hwz⟩ := hs z hz
    refine ⟨w, ?_, hwz⟩
    simp only [List.mem_append, List.mem_cons] at hw ⊢
    rcases hw with h | rfl | h
    · exact .inl h
    · exact absurd ⟨z, hz, he.symm _ _ hwz⟩ hc
    · exact .inr h)
  simp only [List.length_append, List.length_cons] at *
  omega

/-- C17 is false: {2, 1} against {1} is reported as 2 (unrelated) and not as 1 (superset). -/
theorem C17_false : ∃ (ops1 ops2 : List (SetOp Nat)),
    let s1 := setAfter eqMod ops1
    let s2 := setAfter eqMod ops2
    Sub eqMod s2 s1 ∧ ¬ Sub eqMod s1 s2 ∧ CSet.cmp eqMod s1 s2 = 2 := by
  refine ⟨[.add 2, .add 1], [.add 1], ?_, ?_, by decide⟩
  · intro x hx
    have : x = 1 := by simpa [setAfter, SetOp.run, add, mem] using hx
    subst this
    exact ⟨1, by decide, by decide⟩
  · intro h
    obtain ⟨y, hy, h2⟩ := h 2 (by decide)
    have : y = 1 := by simpa [setAfter, SetOp.run, add, mem] using hy
    subst this
    exact absurd h2 (by decide)

/-- C17, part that holds: for every equivalence and all sets built by calls, 0 is equality, -1 is
proper subset, 1 implies proper superset, and unrelated sets give 2.
Missing: a proper superset may give 2 (`C17_false`). -/
theorem C17_classify_partial {eqf : α → α → Bool} (he : IsEquiv eqf)
    (ops1 ops2 : List (SetOp α)) :
    let s1 := setAfter eqf ops1
    let s2 := setAfter eqf ops2
    (CSet.cmp eqf s1 s2 = 0 ↔ Sub eqf s1 s2 ∧ Sub eqf s2 s1) ∧
    (CSet.cmp eqf s1 s2 = -1 ↔ Sub eqf s1 s2 ∧ ¬ Sub eqf s2 s1) ∧
    (CSet.cmp eqf s1 s2 = 1 → Sub eqf s2 s1 ∧ ¬ Sub eqf s1 s2) ∧
    (¬ Sub eqf s1 s2 → ¬ Sub eqf s2 s1 → CSet.cmp eqf s1 s2 = 2) ∧
    (CSet.cmp eqf s1 s2 = 0 ∨ CSet.cmp eqf s1 s2 = -1 ∨ CSet.cmp eqf s1 s2 = 1 ∨
      CSet.cmp eqf s1 s2 = 2) := by
  intro s1 s2
  have u1 : s1.Pairwise fun a b => eqf a b = false := C16_unique eqf ops1
  have u2 : s2.Pairwise fun a b => eqf a b = false := C16_unique eqf ops2
  obtain ⟨c0, c1, c2, c3⟩ := cmp_spec eqf s1 s2 (injAt_of_uniq he s2 u1)
  have hsub : (∀ x ∈ s1, mem eqf s2 x = true) ↔ Sub eqf s1 s2 := by
    constructor
    · intro h x hx; exact (mem_iff _ _ _).1 (h x hx)
    · intro h x hx; exact (mem_iff _ _ _).2 (h x hx)
  rw [hsub] at c0 c1
  have e0 : CSet.cmp eqf s1 s2 = 0 ↔ Sub eqf s1 s2 ∧ Sub eqf s2 s1 := by
    rw [c0]
    constructor
    · rintro ⟨h1, h2⟩
      exact ⟨h1, pigeonhole_rel_eq he s1 s2 u1 h1 (by omega)⟩
    · rintro ⟨h1, h2⟩
      have := pigeonhole_rel he s1 s2 u1 h1
      have := pigeonhole_rel he s2 s1 u2 h2
      exact ⟨h1, by omega⟩
  have e1 : CSet.cmp eqf s1 s2 = -1 ↔ Sub eqf s1 s2 ∧ ¬ Sub eqf s2 s1 := by
    rw [c1]
    constructor
    · rintro ⟨h1, h2⟩
      refine ⟨h1, fun h3 => ?_⟩
      have := pigeonhole_rel he s2 s1 u2 h3
      omega
    · rintro ⟨h1, h2⟩
      refine ⟨h1, ?_⟩
      have := pigeonhole_rel he s1 s2 u1 h1
      refine Nat.lt_of_le_of_ne this fun hc => h2 ?_
      exact pigeonhole_rel_eq he s1 s2 u1 h1 (by omega)
  have e2 : CSet.cmp eqf s1 s2 = 1 → Sub eqf s2 s1 ∧ ¬ Sub eqf s1 s2 := by
    rw [c2]
    rintro ⟨h1, h2⟩
    have hs : Sub eqf (s1.take s2.length) s2 := fun x hx => (mem_iff _ _ _).1 (h1 x hx)
    have := pigeonhole_rel_eq he (s1.take s2.length) s2 (u1.sublist (List.take_sublist _ _)) hs
      (by rw [List.length_take]; omega)
    refine ⟨fun y hy => ?_, fun h3 => ?_⟩
    · obtain ⟨z, hz, hzy⟩ := this y hy
      exact ⟨z, List.mem_of_mem_take hz, hzy⟩
    · have := pigeonhole_rel he s1 s2 u1 h3
      omega
  have e4 : CSet.cmp eqf s1 s2 = 0 ∨ CSet.cmp eqf s1 s2 = -1 ∨ CSet.cmp eqf s1 s2 = 1 ∨
      CSet.cmp eqf s1 s2 = 2 := by
    simp only [CSet.cmp]
    split
    · simp
    · split <;> split <;> simp
  refine ⟨e0, e1, e2, fun h1 h2 => ?_, e4⟩
  rcases e4 with h | h | h | h
  · exact absurd (e0.1 h).1 h1
  · exact absurd (e1.1 h).1 h1
  · exact absurd (e2 h).1 h2
  · exact h

/-- C17: a proper superset gives 1 exactly when its first members are those of the second set.
Missing: see `C17_classify_partial`. -/
theorem C17_superset_partial {eqf : α → α → Bool} (he : IsEquiv eqf)
    (ops1 ops2 : List (SetOp α)) :
    let s1 := setAfter eqf ops1
    let s2 := setAfter eqf ops2
    CSet.cmp eqf s1 s2 = 1 ↔
      s2.length < s1.length ∧ Sub eqf (s1.take s2.length) s2 := by
  intro s1 s2
  have u1 : s1.Pairwise fun a b => eqf a b = false := C16_unique eqf ops1
  rw [(cmp_spec eqf s1 s2 (injAt_of_uniq he s2 u1)).2.2.1, and_comm]
  refine and_congr_right fun _ => ?_
  constructor
  · intro h x hx; exact (mem_iff _ _ _).1 (h x hx)
  · intro h x hx; exact (mem_iff _ _ _).2 (h x hx)

example : CSet.cmp eqMod (setAfter eqMod [.add 1, .add 2]) (setAfter eqMod [.add 12, .add 11]) = 0 :=
  by decide
example : CSet.cmp eqMod (setAfter eqMod [.add 1]) (setAfter eqMod [.add 12, .add 11]) = -1 := by
  decide
example : CSet.cmp eqMod (setAfter eqMod [.add 1, .add 2]) (setAfter eqMod [.add 11]) = 1 := by decide
example := C17_classify_partial eqMod_equiv [.add 1, .add 2] [.add 3]

/-! ## C18 -/

theorem foldl_add_firsts (eqf : α → α → Bool) (l s : List α) :
    l.foldl (add eqf) s = s ++ firsts eqf s l := by
  induction l generalizing s with
  | nil => simp [firsts]
  | cons x xs ih =>
    simp only [List.foldl_cons, firsts]
    have hany : s.any (fun y => eqf y x) = mem eqf s x := by
      induction s with
      | nil => rfl
      | cons y ys ih2 => simp only [List.any_cons, mem]; cases h : eqf y x <;> simp [ih2]
    rw [ih, hany]
    cases h : mem eqf s x <;> simp [add, h]

/-- C18: de-duplication leaves the first occurrences in their order, for every list and every
equality function. -/
theorem C18_unique_firsts (eqf : α → α → Bool) (l : List α) :
    CSet.unique eqf l = firsts eqf [] l := by
  have := foldl_add_firsts eqf l []
  simpa [CSet.unique] using this

/-- C18: for an equivalence, the result is a sublist of the input, no two elements are equal, every
input element is represented, and the kept element is the first of its class. -/
theorem C18_unique_spec {eqf : α → α → Bool} (he : IsEquiv eqf) (l : List α) :
    (CSet.unique eqf l).Sublist l ∧ ((CSet.unique eqf l).Pairwise fun a b => eqf a b = false) ∧
    Sub eqf l (CSet.unique eqf l) ∧
    ∀ pre x post, l = pre ++ x :: post → ¬ In eqf pre x → x ∈ CSet.unique eqf l := by
  have hF : ∀ (l seen : List α), (firsts eqf seen l).Sublist l := by
    intro l
    induction l with
    | nil => intro seen; simp [firsts]
    | cons x xs ih =>
      intro seen
      simp only [firsts]
      split
      · exact (ih _).cons _
      · exact (ih _).cons_cons _
  have hin : ∀ (l seen : List α) (x : α), x ∈ l → In eqf (seen ++ firsts eqf seen l) x := by
    intro l
    induction l with
    | nil => intro seen x hx; simp at hx
    | cons y ys ih =>
      intro seen x hx
      simp only [firsts]
      split
      · rename_i hany
        rcases List.mem_cons.1 hx with rfl | hx
        · simp only [List.any_eq_true] at hany
          obtain ⟨z, hz, hzx⟩ := hany
          exact ⟨z, by simp [hz], hzx⟩
        · exact ih seen x hx
      · rcases List.mem_cons.1 hx with rfl | hx
        · exact ⟨x, by simp, he.refl x⟩
        · have := ih (seen ++ [y]) x hx
          simpa using this
  have hfirst : ∀ (l seen pre : List α) (x : α) (post : List α), l = pre ++ x :: post →
      ¬ In eqf seen x → ¬ In eqf pre x → x ∈ firsts eqf seen l := by
    intro l
    induction l with
    | nil => intro seen pre x post h; simp at h
    | cons y ys ih =>
      intro seen pre x post h hs hp
      simp only [firsts]
      cases pre with
      | nil =>
        simp only [List.nil_append, List.cons.injEq] at h
        obtain ⟨rfl, rfl⟩ := h
        rw [if_neg]
        · simp
        · simpa [In] using hs
      | cons p ps =>
        simp only [List.cons_append, List.cons.injEq] at h
        obtain ⟨rfl, h⟩ := h
        have hps : ¬ In eqf ps x := fun ⟨z, hz, hzx⟩ => hp ⟨z, by simp [hz], hzx⟩
        split
        · exact ih seen ps x post h hs hps
        · refine List.mem_cons_of_mem _ (ih (seen ++ [y]) ps x post h ?_ hps)
          rintro ⟨z, hz, hzx⟩
          rcases List.mem_append.1 hz with hz | hz
          · exact hs ⟨z, hz, hzx⟩
          · exact hp ⟨z, by simp at hz; simp [hz], hzx⟩
  refine ⟨?_, foldl_add_uniq l [] List.Pairwise.nil, ?_, ?_⟩
  · rw [C18_unique_firsts]; exact hF l []
  · intro x hx
    rw [C18_unique_firsts]
    simpa using hin l [] x hx
  · intro pre x post h hp
    rw [C18_unique_firsts]
    exact hfirst l [] pre x post h (by simp [In]) hp

example : CSet.unique eqMod [3, 14, 13, 4, 5, 15] = [3, 14, 5] := by decide
example : 14 ∈ CSet.unique eqMod [3, 14, 13, 4, 5] :=
  (C18_unique_spec eqMod_equiv _).2.2.2 [3] 14 [13, 4, 5] rfl (by simp [In, eqMod])

end Comps.Props

section
open Comps.Props
#print axioms C16_unique
#print axioms C16_add
#print axioms C16_lookup
#print axioms C16_remove
#print axioms C16_removed_absent
#print axioms C17_false
#print axioms C17_classify_partial
#print axioms C17_superset_partial
#print axioms C18_unique_firsts
#print axioms C18_unique_spec
end
