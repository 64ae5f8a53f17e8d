import Verif.Model.RTree

/-!
# Helper lemmas about the dictionary model
-/

namespace Comps.RTree
variable {V : Type}

/-- Well-formed child list: keys non-empty, first bytes of siblings distinct, no `last` without
items; recursively. -/
inductive WF : HSList (Node V) → Prop
  | mk (l : HSList (Node V)) :
      (∀ n ∈ l.items, n.key ≠ []) →
      l.items.Pairwise (fun a b => a.key.head? ≠ b.key.head?) →
      (l.tailSet = true → l.items ≠ []) →
      (∀ n ∈ l.items, WF n.subnodes) → WF l

theorem WF.ne {l : HSList (Node V)} (h : WF l) : ∀ n ∈ l.items, n.key ≠ [] := by cases h; assumption
theorem WF.pw {l : HSList (Node V)} (h : WF l) :
    l.items.Pairwise (fun a b => a.key.head? ≠ b.key.head?) := by cases h; assumption
theorem WF.tl {l : HSList (Node V)} (h : WF l) : l.tailSet = true → l.items ≠ [] := by
  cases h; assumption
theorem WF.sub {l : HSList (Node V)} (h : WF l) : ∀ n ∈ l.items, WF n.subnodes := by
  cases h; assumption

theorem wf_empty : WF (HSList.empty : HSList (Node V)) :=
  .mk _ (by simp [HSList.empty]) (by simp [HSList.empty]) (by simp [HSList.empty])
    (by simp [HSList.empty])

@[simp] theorem subnodes_mk (k : Bytes) (d : Option V) (s t) :
    (Node.mk k d s t).subnodes = ⟨s, t⟩ := (rfl)
@[simp] theorem key_mk (k : Bytes) (d : Option V) (s t) : (Node.mk k d s t).key = k := (rfl)
@[simp] theorem data_mk (k : Bytes) (d : Option V) (s t) : (Node.mk k d s t).data = d := (rfl)
@[simp] theorem sub_mk (k : Bytes) (d : Option V) (s t) : (Node.mk k d s t).sub = s := (rfl)
@[simp] theorem tail_mk (k : Bytes) (d : Option V) (s t) : (Node.mk k d s t).tail = t := (rfl)
@[simp] theorem ofList_key (k : Bytes) (d : Option V) (l) : (Node.ofList k d l).key = k := (rfl)
@[simp] theorem ofList_data (k : Bytes) (d : Option V) (l) : (Node.ofList k d l).data = d := (rfl)
@[simp] theorem ofList_sub (k : Bytes) (d : Option V) (l) : (Node.ofList k d l).sub = l.items := (rfl)
@[simp] theorem ofList_subnodes (k : Bytes) (d : Option V) (l) :
    (Node.ofList k d l).subnodes = l := (rfl)
@[simp] theorem leaf_key (k : Bytes) (d : Option V) : (Node.leaf k d).key = k := (rfl)
@[simp] theorem leaf_data (k : Bytes) (d : Option V) : (Node.leaf k d).data = d := (rfl)
@[simp] theorem leaf_sub (k : Bytes) (d : Option V) : (Node.leaf k d).sub = [] := (rfl)
@[simp] theorem leaf_subnodes (k : Bytes) (d : Option V) :
    (Node.leaf k d).subnodes = HSList.empty := (rfl)
@[simp] theorem subnodes_items (n : Node V) : n.subnodes.items = n.sub := (rfl)
@[simp] theorem subnodes_tailSet (n : Node V) : n.subnodes.tailSet = n.tail := (rfl)
@[simp] theorem empty_items : (HSList.empty : HSList (Node V)).items = [] := (rfl)
@[simp] theorem empty_tailSet : (HSList.empty : HSList (Node V)).tailSet = false := (rfl)

/-! ## Structural lookup -/

mutual
/-- Lookup in one node whose key is compared as a whole. -/
def nodeLk : Node V → Bytes → Option V
  | .mk key data sub _, k =>
    if k = key then data else if key <+: k then listLk sub (k.drop key.length) else none
/-- Lookup in a list: first node with the same first byte. -/
def listLk : List (Node V) → Bytes → Option V
  | [], _ => none
  | n :: ns, k => if n.key.head? = k.head? then nodeLk n k else listLk ns k
end

theorem nodeLk_eq (n : Node V) (k : Bytes) :
    nodeLk n k = if k = n.key then n.data
      else if n.key <+: k then listLk n.sub (k.drop n.key.length) else none := by
  cases n; simp only [nodeLk]; rfl

theorem listLk_of_mem {l : List (Node V)} (hp : l.Pairwise (fun a b => a.key.head? ≠ b.key.head?))
    {n : Node V} (hn : n ∈ l) {k : Bytes} (hk : n.key.head? = k.head?) :
    listLk l k = nodeLk n k := by
  induction l with
  | nil => simp at hn
  | cons m ms ih =>
    rw [List.pairwise_cons] at hp
    simp only [listLk]
    rcases List.mem_cons.1 hn with h | h
    · subst h; simp [hk]
    · have : m.key.head? ≠ k.head? := hk ▸ hp.1 n h
      simp [this, ih hp.2 h]

theorem listLk_none {l : List (Node V)} {k : Bytes} (h : ∀ n ∈ l, n.key.head? ≠ k.head?) :
    listLk l k = none := by
  induction l with
  | nil => simp [listLk]
  | cons m ms ih => simp at h; simp [listLk, h.1, ih h.2]

theorem head_eq_cons {k : Bytes} {c : UInt8} (h : k.head? = some c) : ∃ cs, k = c :: cs := by
  cases k with
  | nil => simp at h
  | cons a as => simp at h; exact ⟨as, by rw [h]⟩

theorem listLk_nil_key {l : List (Node V)} (h : ∀ n ∈ l, n.key ≠ []) : listLk l [] = none := by
  apply listLk_none
  intro n hn
  have := h n hn
  cases hk : n.key <;> simp_all

/-! ## Finding and matching -/

theorem findAt_some {c : UInt8} {l : List (Node V)} {i : Nat} {n : Node V}
    (h : findAt c l = some (i, n)) :
    ∃ pre post, l = pre ++ n :: post ∧ pre.length = i ∧ n.key.head? = some c := by
  induction l generalizing i with
  | nil => simp [findAt] at h
  | cons m ms ih =>
    simp only [findAt] at h
    split at h
    · rename_i hc
      simp at h; obtain ⟨rfl, rfl⟩ := h
      exact ⟨[], ms, by simp, rfl, hc⟩
    · simp at h
      obtain ⟨j, hj, rfl⟩ := h
      obtain ⟨pre, post, rfl, rfl, h3⟩ := ih hj
      exact ⟨m :: pre, post, by simp, by simp, h3⟩

theorem findAt_none {c : UInt8} {l : List (Node V)} (h : findAt c l = none) :
    ∀ n ∈ l, n.key.head? ≠ some c := by
  induction l with
  | nil => simp
  | cons m ms ih =>
    simp only [findAt] at h
    split at h
    · simp at h
    · rename_i hc
      simp at h
      intro n hn
      rcases List.mem_cons.1 hn with rfl | hn
      · exact hc
      · exact ih h n hn

theorem matchFrom_spec (nk key : Bytes) (x : Nat) :
    match matchFrom nk key x with
    | .both y => nk = key ∧ y = x + nk.length
    | .keyEnds y => (∃ a as, nk = key ++ a :: as) ∧ y = x + key.length
    | .nodeEnds y => (∃ a as, key = nk ++ a :: as) ∧ y = x + nk.length
    | .differ y => ∃ p a as b bs, nk = p ++ a :: as ∧ key = p ++ b :: bs ∧ a ≠ b ∧
        y = x + p.length := by
  induction nk generalizing key x with
  | nil =>
    cases key with
    | nil => simp [matchFrom]
    | cons b bs => simp [matchFrom]
  | cons a as ih =>
    cases key with
    | nil => simp [matchFrom]
    | cons b bs =>
      simp only [matchFrom]
      by_cases hab : b = a
      · subst hab
        have := ih bs (x + 1)
        simp only [if_true]
        cases hm : matchFrom as bs (x + 1) with
        | both y => simp [hm] at this ⊢; exact ⟨this.1, by omega⟩
        | keyEnds y => simp [hm] at this ⊢; exact ⟨this.1, by omega⟩
        | nodeEnds y => simp [hm] at this ⊢; exact ⟨this.1, by omega⟩
        | differ y =>
          simp [hm] at this ⊢
          obtain ⟨p, c, ⟨cs, h1⟩, d, ⟨ds, h2⟩, h3, h4⟩ := this
          exact ⟨b :: p, c, ⟨cs, by simp [h1]⟩, d, ⟨ds, by simp [h2]⟩, h3, by simp; omega⟩
      · simp only [if_neg hab]
        exact ⟨[], a, as, b, bs, rfl, rfl, fun h => hab h.symm, rfl⟩

theorem matchKey_spec {nk : Bytes} {c : UInt8} (cs : Bytes) (hn : nk.head? = some c) :
    match matchKey nk (c :: cs) with
    | .both _ => nk = c :: cs
    | .keyEnds y => (∃ a as, nk = (c :: cs) ++ a :: as) ∧ y = (c :: cs).length
    | .nodeEnds y => (∃ a as, c :: cs = nk ++ a :: as) ∧ y = nk.length
    | .differ y => ∃ p a as b bs, nk = c :: p ++ a :: as ∧ c :: cs = c :: p ++ b :: bs ∧ a ≠ b ∧
        y = (c :: p).length := by
  obtain ⟨ns, rfl⟩ := head_eq_cons hn
  have h := matchFrom_spec ns cs 1
  simp only [matchKey, List.drop_succ_cons, List.drop_zero]
  cases hm : matchFrom ns cs 1 with
  | both y => simp [hm] at h ⊢; exact h.1
  | keyEnds y => simp [hm] at h ⊢; exact ⟨h.1, by omega⟩
  | nodeEnds y => simp [hm] at h ⊢; exact ⟨h.1, by omega⟩
  | differ y =>
    simp [hm] at h ⊢
    obtain ⟨p, a, ⟨as, h1⟩, b, ⟨bs, h2⟩, h3, h4⟩ := h
    exact ⟨p, a, ⟨as, by simp [h1]⟩, b, ⟨bs, by simp [h2]⟩, h3, by omega⟩

/-! ## The code's lookup is the structural lookup -/

theorem getLoop_eq (fuel : Nat) (k : Bytes) (l : HSList (Node V)) (hl : WF l)
    (hf : k.length ≤ fuel) : getLoop fuel k l.items = listLk l.items k := by
  induction fuel generalizing k l with
  | zero =>
    cases k with
    | nil => rw [listLk_nil_key hl.ne]; rfl
    | cons c cs => simp at hf
  | succ fuel ih =>
    cases k with
    | nil => rw [listLk_nil_key hl.ne]; rfl
    | cons c cs =>
      simp only [getLoop]
      cases hfd : findAt c l.items with
      | none => exact (listLk_none (by simpa using findAt_none hfd)).symm
      | some r =>
        obtain ⟨i, n⟩ := r
        obtain ⟨pre, post, hl1, -, hh⟩ := findAt_some hfd
        have hmem : n ∈ l.items := by rw [hl1]; simp
        rw [listLk_of_mem hl.pw hmem (by simpa using hh), nodeLk_eq]
        have hm := matchKey_spec cs hh
        simp only
        cases hmk : matchKey n.key (c :: cs) with
        | both y => simp only [hmk] at hm ⊢; simp [hm]
        | keyEnds y =>
          simp only [hmk] at hm ⊢
          obtain ⟨⟨a, as, h1⟩, -⟩ := hm
          have h2 : c :: cs ≠ n.key := by rw [h1]; intro h; simpa using congrArg List.length h
          have h3 : ¬ n.key <+: c :: cs := by
            intro h; have := h.length_le; rw [h1] at this; simp at this; omega
          rw [if_neg h2, if_neg h3]
        | nodeEnds y =>
          simp only [hmk] at hm ⊢
          obtain ⟨⟨a, as, h1⟩, rfl⟩ := hm
          have h2 : c :: cs ≠ n.key := by rw [h1]; intro h; simpa using congrArg List.length h
          have h3 : n.key <+: c :: cs := by rw [h1]; simp
          have hne := hl.ne n hmem
          rw [if_neg h2, if_pos h3]
          have := ih ((c :: cs).drop n.key.length) n.subnodes (hl.sub n hmem) (by
            have : 0 < n.key.length := List.length_pos_iff.2 hne
            simp only [List.length_drop] at *; omega)
          simpa using this
        | differ y =>
          simp only [hmk] at hm ⊢
          obtain ⟨p, a, as, b, bs, h1, h2, h3, -⟩ := hm
          have h4 : c :: cs ≠ n.key := by
            rw [h1, h2]; simp only [List.cons_append, ne_eq, List.cons.injEq, true_and]
            intro h; have := List.append_cancel_left h; simp at this; exact h3 this.1.symm
          have h5 : ¬ n.key <+: c :: cs := by
            rw [h1, h2]; simp only [List.cons_append, List.cons_prefix_cons, true_and]
            rw [List.prefix_append_right_inj]; simp [h3]
          rw [if_neg h4, if_neg h5]

end Comps.RTree
