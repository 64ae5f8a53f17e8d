import Verif.Model.CSet
import Verif.Lemmas.ListAux

/-! # Lemmas about sets -/

namespace Comps.CSet
variable {α : Type}

theorem mem_iff (eqf : α → α → Bool) (s : List α) (x : α) :
    mem eqf s x = true ↔ ∃ y ∈ s, eqf y x = true := by
  induction s with
  | nil => simp [mem]
  | cons y ys ih =>
    simp only [mem]
    cases h : eqf y x <;> simp [h, ih]

theorem at?_some {eqf : α → α → Bool} {s : List α} {x : α} {i : Nat} (h : at? eqf s x = some i) :
    ∃ hi : i < s.length, eqf s[i] x = true ∧ ∀ j (hj : j < i), eqf (s[j]'(by omega)) x = false := by
  induction s generalizing i with
  | nil => simp [at?] at h
  | cons y ys ih =>
    simp only [at?] at h
    cases he : eqf y x with
    | true =>
      simp [he] at h; subst h
      exact ⟨by simp, by simpa using he, by omega⟩
    | false =>
      simp [he] at h
      obtain ⟨j, hj, rfl⟩ := h
      obtain ⟨h1, h2, h3⟩ := ih hj
      refine ⟨by simp; omega, by simpa using h2, ?_⟩
      intro j' hj'
      cases j' with
      | zero => simpa using he
      | succ j' => simpa using h3 j' (by omega)

theorem at?_none {eqf : α → α → Bool} {s : List α} {x : α} :
    at? eqf s x = none ↔ ∀ y ∈ s, eqf y x = false := by
  induction s with
  | nil => simp [at?]
  | cons y ys ih =>
    simp only [at?]
    cases he : eqf y x <;> simp [he, ih]

theorem at?_isSome {eqf : α → α → Bool} {s : List α} {x : α} :
    (at? eqf s x).isSome = mem eqf s x := by
  induction s with
  | nil => simp [at?, mem]
  | cons y ys ih => simp only [at?, mem]; split <;> simp_all

theorem remove_index (l : List Nat) (i : Nat) : (remove indexCmp l i).1 = l.erase i := by
  induction l with
  | nil => rfl
  | cons a as ih =>
    simp only [remove, indexCmp, List.erase_cons]
    by_cases h : a = i <;> simp [h] <;> exact ih

theorem add_mem_cases (eqf : α → α → Bool) (s : List α) (x y : α) (h : y ∈ add eqf s x) :
    y ∈ s ∨ y = x := by
  unfold add at h
  split at h
  · exact .inl h
  · simpa using h

/-- No stored item equals a later stored item. -/
def Uniq (eqf : α → α → Bool) (s : List α) : Prop := s.Pairwise fun a b => eqf a b = false

theorem add_uniq {eqf : α → α → Bool} {s : List α} (h : Uniq eqf s) (x : α) :
    Uniq eqf (add eqf s x) := by
  unfold add
  cases hm : mem eqf s x with
  | true => simpa using h
  | false =>
    simp only [Bool.false_eq_true, if_false, Uniq]
    rw [List.pairwise_append]
    refine ⟨h, by simp, ?_⟩
    intro a ha b hb
    simp at hb; subst hb
    cases he : eqf a b with
    | false => rfl
    | true =>
      have := (mem_iff eqf s b).2 ⟨a, ha, he⟩
      rw [hm] at this; simp at this

theorem foldl_add_uniq {eqf : α → α → Bool} (l s : List α) (h : Uniq eqf s) :
    Uniq eqf (l.foldl (add eqf) s) := by
  induction l generalizing s with
  | nil => exact h
  | cons x xs ih => exact ih _ (add_uniq h x)

theorem foldl_add_of_pairwise {eqf : α → α → Bool} (l s : List α)
    (h : Uniq eqf (s ++ l)) : l.foldl (add eqf) s = s ++ l := by
  induction l generalizing s with
  | nil => simp
  | cons x xs ih =>
    simp only [List.foldl_cons]
    have hx : mem eqf s x = false := by
      cases hm : mem eqf s x with
      | false => rfl
      | true =>
        obtain ⟨y, hy, he⟩ := (mem_iff _ _ _).1 hm
        unfold Uniq at h
        rw [List.pairwise_append] at h
        have := h.2.2 y hy x (by simp)
        rw [he] at this; simp at this
    have : add eqf s x = s ++ [x] := by simp [add, hx]
    rw [this, ih]
    · simp
    · simpa using h

/-! ## cmp -/

/-- Two different positions of `s1` never hit the same position of `s2`. -/
def InjAt (eqf : α → α → Bool) (s1 s2 : List α) : Prop :=
  s1.Pairwise fun x y => ∀ i, at? eqf s2 x = some i → at? eqf s2 y ≠ some i

theorem cmpLoop_spec (eqf : α → α → Bool) (s2 : List α) (xs : List α) (index : Nat)
    (np2 : List Nat) (hinj : InjAt eqf xs s2) (hnd : np2.Nodup)
    (hin : ∀ x ∈ xs, ∀ i, at? eqf s2 x = some i → i ∈ np2) :
    let r := cmpLoop eqf s2 xs index ((List.range' index xs.length)) np2
    (r.1 = true ↔ ∃ x ∈ xs.take np2.length, at? eqf s2 x = none) ∧
    (r.1 = false → r.2.1.length = xs.length - np2.length ∧
      r.2.2.length = np2.length - xs.length) := by
  induction xs generalizing index np2 with
  | nil => simp [cmpLoop]
  | cons x xs ih =>
    simp only [cmpLoop]
    cases hnp : np2 with
    | nil => simp
    | cons j js =>
      rw [← hnp]
      have hne : np2.isEmpty = false := by simp [hnp]
      simp only [List.length_cons, List.range'_succ, List.isEmpty_cons, hne, Bool.or_self,
        Bool.false_eq_true, if_false]
      have hlen : np2.length = js.length + 1 := by simp [hnp]
      cases hat : at? eqf s2 x with
      | none =>
        simp only [true_iff]
        refine ⟨⟨x, ?_, hat⟩, by simp⟩
        rw [hlen]; simp
      | some i =>
        simp only
        unfold InjAt at hinj
        rw [List.pairwise_cons] at hinj
        have hi := hin x (by simp) i hat
        have hrem : (remove indexCmp (index :: List.range' (index + 1) xs.length) index).1 =
            List.range' (index + 1) xs.length := by
          simp [remove, indexCmp]
        rw [hrem, remove_index]
        have := ih (index + 1) (np2.erase i) hinj.2 (hnd.erase i) (by
          intro y hy k hk
          have hki : k ≠ i := by
            rintro rfl
            exact hinj.1 y hy k hat hk
          rw [List.mem_erase_of_ne hki]
          exact hin y (by simp [hy]) k hk)
        simp only [List.length_erase_of_mem hi] at this
        obtain ⟨h1, h2⟩ := this
        refine ⟨?_, ?_⟩
        · rw [h1, hlen]
          simp [hat]
        · intro hr
          have := h2 hr
          constructor <;> omega

theorem cmp_spec (eqf : α → α → Bool) (s1 s2 : List α) (hinj : InjAt eqf s1 s2) :
    (cmp eqf s1 s2 = 0 ↔ (∀ x ∈ s1, mem eqf s2 x = true) ∧ s1.length = s2.length) ∧
    (cmp eqf s1 s2 = -1 ↔ (∀ x ∈ s1, mem eqf s2 x = true) ∧ s1.length < s2.length) ∧
    (cmp eqf s1 s2 = 1 ↔
      (∀ x ∈ s1.take s2.length, mem eqf s2 x = true) ∧ s2.length < s1.length) ∧
    (cmp eqf s1 s2 = 2 ↔ ∃ x ∈ s1.take s2.length, mem eqf s2 x = false) := by
  have h := cmpLoop_spec eqf s2 s1 0 (List.range s2.length) hinj List.nodup_range (by
    intro x hx i hi
    obtain ⟨h1, -⟩ := at?_some hi
    simpa using h1)
  simp only [List.length_range] at h
  rw [← List.range_eq_range'] at h
  obtain ⟨h1, h2⟩ := h
  have key : (∃ x ∈ s1.take s2.length, at? eqf s2 x = none) ↔
      ∃ x ∈ s1.take s2.length, mem eqf s2 x = false := by
    constructor
    · rintro ⟨x, hx, ha⟩
      refine ⟨x, hx, ?_⟩
      rw [← at?_isSome, ha]; rfl
    · rintro ⟨x, hx, ha⟩
      refine ⟨x, hx, ?_⟩
      rw [← at?_isSome] at ha
      simpa using ha
  rw [key] at h1
  have take_all : s1.length ≤ s2.length → s1.take s2.length = s1 := fun h => List.take_of_length_le h
  simp only [cmp]
  generalize hr : cmpLoop eqf s2 s1 0 (List.range s1.length) (List.range s2.length) = r at h1 h2
  cases hr1 : r.1 with
  | true =>
    have hex := h1.1 hr1
    have hno : ¬ ∀ x ∈ s1.take s2.length, mem eqf s2 x = true := by
      obtain ⟨x, hx, ha⟩ := hex
      intro hall
      rw [hall x hx] at ha; simp at ha
    have hno2 : ¬ ∀ x ∈ s1, mem eqf s2 x = true := fun hall =>
      hno fun x hx => hall x (List.mem_of_mem_take hx)
    simp [hno2, hno, hex]
  | false =>
    have hall : ∀ x ∈ s1.take s2.length, mem eqf s2 x = true := by
      intro x hx
      cases hm : mem eqf s2 x with
      | true => rfl
      | false =>
        have := h1.2 ⟨x, hx, hm⟩
        rw [hr1] at this; simp at this
    have hnex : ¬ ∃ x ∈ s1.take s2.length, mem eqf s2 x = false := by
      rw [← h1, hr1]; simp
    obtain ⟨l1, l2⟩ := h2 hr1
    have e1 : r.2.1.isEmpty = true ↔ s1.length ≤ s2.length := by
      rw [List.isEmpty_iff_length_eq_zero, l1]; omega
    have e2 : r.2.2.isEmpty = true ↔ s2.length ≤ s1.length := by
      rw [List.isEmpty_iff_length_eq_zero, l2]; omega
    simp only [Bool.false_eq_true, if_false, hnex, iff_false]
    by_cases a : s1.length ≤ s2.length
    · rw [take_all a] at hall
      by_cases b : s2.length ≤ s1.length
      · have : s1.length = s2.length := by omega
        simp [e1.2 a, e2.2 b, this]
        exact hall
      · have hlt : s1.length < s2.length := by omega
        have hb : r.2.2.isEmpty = false := by
          cases hc : r.2.2.isEmpty with
          | false => rfl
          | true => exact absurd (e2.1 hc) b
        simp [e1.2 a, hb, hlt]
        refine ⟨fun _ => by omega, hall, by omega⟩
    · have ha : r.2.1.isEmpty = false := by
        cases hc : r.2.1.isEmpty with
        | false => rfl
        | true => exact absurd (e1.1 hc) a
      have b : s2.length ≤ s1.length := by omega
      have c : s2.length < s1.length := by omega
      simp [ha, e2.2 b, c]
      refine ⟨fun _ => by omega, fun _ => by omega, hall⟩

end Comps.CSet
