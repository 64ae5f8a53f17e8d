import Verif.Lemmas.RTreeSet

/-!
# Lemmas about listings
-/

namespace Comps.RTree
variable {V : Type}

/-- The entry a node contributes to a listing. -/
def emit (k : Bytes) : Option V → List (Bytes × V)
  | some v => [(k, v)]
  | none => []

mutual
/-- Pre-order listing of one node below the path `p`. -/
def preN (p : Bytes) : Node V → List (Bytes × V)
  | .mk key data sub _ => emit (p ++ key) data ++ preL (p ++ key) sub
/-- Pre-order listing of a list below the path `p`. -/
def preL (p : Bytes) : List (Node V) → List (Bytes × V)
  | [] => []
  | n :: ns => preN p n ++ preL p ns
end

theorem preN_eq (p : Bytes) (n : Node V) :
    preN p n = emit (p ++ n.key) n.data ++ preL (p ++ n.key) n.sub := by
  cases n; simp [preN]

theorem preL_eq (p : Bytes) (l : List (Node V)) : preL p l = l.flatMap (preN p) := by
  induction l with
  | nil => simp [preL]
  | cons n ns ih => simp [preL, ih]

theorem nodeCount_eq (n : Node V) : nodeCount n = 1 + listCount n.sub := by
  cases n; simp [nodeCount]

theorem listCount_sum (l : List (Node V)) : listCount l = (l.map nodeCount).sum := by
  induction l with
  | nil => simp [listCount]
  | cons n ns ih => simp [listCount, ih]

theorem allLoop_eq (fuel : Nat) (todo : List (Bytes × Node V))
    (h : (todo.map fun e => nodeCount e.2).sum ≤ fuel) :
    allLoop fuel todo = todo.flatMap fun e => emit e.1 e.2.data ++ preL e.1 e.2.sub := by
  induction fuel generalizing todo with
  | zero =>
    cases todo with
    | nil => rfl
    | cons e es => simp [nodeCount_eq] at h
  | succ fuel ih =>
    cases todo with
    | nil => rfl
    | cons e es =>
      obtain ⟨k, n⟩ := e
      simp only [allLoop, List.flatMap_cons]
      rw [ih]
      · rw [List.flatMap_append, preL_eq]
        simp only [List.flatMap_map, ← preN_eq]
        cases n.data <;> simp [emit]
      · simp only [List.map_cons, List.sum_cons, nodeCount_eq n] at h
        simp only [List.map_append, List.map_map, List.sum_append]
        have : (n.sub.map ((fun e : Bytes × Node V => nodeCount e.2) ∘ fun c => (k ++ c.key, c))).sum
            = listCount n.sub := by
          rw [listCount_sum]; rfl
        omega

theorem pairs_eq (t : RTree V) : t.pairs = preL [] t.subnodes.items := by
  simp only [pairs]
  rw [allLoop_eq, preL_eq]
  · simp only [List.flatMap_map]
    congr 1
    funext n
    rw [preN_eq]; simp
  · simp [listCount_sum, List.map_map, Function.comp_def]

theorem nodeLk_some {n : Node V} {k : Bytes} {v : V} (hs : Heads n.sub) :
    nodeLk n k = some v ↔
      (k = n.key ∧ n.data = some v) ∨ ∃ q, k = n.key ++ q ∧ listLk n.sub q = some v := by
  rw [nodeLk_eq]
  by_cases h1 : k = n.key
  · subst h1
    simp [listLk_nil_key hs.1]
  · simp only [h1, false_and, false_or, if_false]
    by_cases h2 : n.key <+: k
    · rw [if_pos h2]
      obtain ⟨q, rfl⟩ := h2
      simp
    · rw [if_neg h2]
      simp
      rintro q rfl
      exact absurd (List.prefix_append _ _) h2

theorem listLk_some {l : List (Node V)} {k : Bytes} {v : V} (hl : Heads l)
    (hs : ∀ n ∈ l, Heads n.sub) : listLk l k = some v ↔ ∃ n ∈ l, nodeLk n k = some v := by
  have key : ∀ n ∈ l, nodeLk n k = some v → n.key.head? = k.head? := by
    intro n hn h
    rw [nodeLk_some (hs n hn)] at h
    have hne := hl.1 n hn
    rcases h with ⟨rfl, -⟩ | ⟨q, rfl, -⟩
    · rfl
    · cases hk : n.key <;> simp_all
  constructor
  · intro h
    by_cases hex : ∃ n ∈ l, n.key.head? = k.head?
    · obtain ⟨n, hn, hk⟩ := hex
      exact ⟨n, hn, by rw [← h, listLk_of_mem hl.2 hn hk]⟩
    · rw [listLk_none fun n hn hk => hex ⟨n, hn, hk⟩] at h
      simp at h
  · rintro ⟨n, hn, h⟩
    rw [listLk_of_mem hl.2 hn (key n hn h), h]

theorem WF.subHeads {l : HSList (Node V)} (h : WF l) : ∀ n ∈ l.items, Heads n.sub :=
  fun n hn => (h.sub n hn).heads

theorem mem_emit {k k' : Bytes} {d : Option V} {v : V} :
    (k', v) ∈ emit k d ↔ k' = k ∧ d = some v := by
  cases d <;> simp [emit, eq_comm]

theorem mem_preL {l : HSList (Node V)} (hl : WF l) (p k : Bytes) (v : V) :
    (k, v) ∈ preL p l.items ↔ ∃ q, k = p ++ q ∧ listLk l.items q = some v := by
  induction hl generalizing p k with
  | mk l h1 h2 h3 h4 ih =>
    have hl : WF l := .mk l h1 h2 h3 h4
    rw [preL_eq, List.mem_flatMap]
    constructor
    · rintro ⟨n, hn, h⟩
      rw [preN_eq, List.mem_append, mem_emit] at h
      rcases h with ⟨rfl, hd⟩ | h
      · refine ⟨n.key, rfl, ?_⟩
        rw [listLk_some hl.heads hl.subHeads]
        exact ⟨n, hn, (nodeLk_some (hl.subHeads n hn)).2 (.inl ⟨rfl, hd⟩)⟩
      · obtain ⟨q, rfl, hq⟩ := (ih n hn (p ++ n.key) k).1 h
        refine ⟨n.key ++ q, by simp, ?_⟩
        rw [listLk_some hl.heads hl.subHeads]
        exact ⟨n, hn, (nodeLk_some (hl.subHeads n hn)).2 (.inr ⟨q, rfl, hq⟩)⟩
    · rintro ⟨q, rfl, hq⟩
      obtain ⟨n, hn, h⟩ := (listLk_some hl.heads hl.subHeads).1 hq
      refine ⟨n, hn, ?_⟩
      rw [preN_eq, List.mem_append, mem_emit]
      rcases (nodeLk_some (hl.subHeads n hn)).1 h with ⟨rfl, hd⟩ | ⟨r, rfl, hr⟩
      · exact .inl ⟨rfl, hd⟩
      · exact .inr ((ih n hn _ _).2 ⟨r, by simp, hr⟩)

theorem listLk_some_ne {l : List (Node V)} (hl : Heads l) {q : Bytes} {v : V}
    (h : listLk l q = some v) : q ≠ [] := by
  rintro rfl
  rw [listLk_nil_key hl.1] at h
  simp at h

theorem mem_preN {l : HSList (Node V)} (hl : WF l) {n : Node V} (hn : n ∈ l.items) {p k : Bytes}
    {v : V} (h : (k, v) ∈ preN p n) : p ++ n.key <+: k := by
  rw [preN_eq, List.mem_append, mem_emit] at h
  rcases h with ⟨rfl, -⟩ | h
  · exact List.prefix_refl _
  · obtain ⟨q, rfl, -⟩ := (mem_preL (hl.sub n hn) _ _ _).1 h
    exact List.prefix_append _ _

theorem head_of_prefix {a k : Bytes} (ha : a ≠ []) (h : a <+: k) : a.head? = k.head? := by
  obtain ⟨r, rfl⟩ := h
  cases a <;> simp_all

theorem preL_nodup {l : HSList (Node V)} (hl : WF l) (p : Bytes) :
    (preL p l.items).Pairwise (fun a b => a.1 ≠ b.1) := by
  induction hl generalizing p with
  | mk l h1 h2 h3 h4 ih =>
    have hl : WF l := .mk l h1 h2 h3 h4
    rw [preL_eq, List.pairwise_flatMap]
    constructor
    · intro n hn
      rw [preN_eq, List.pairwise_append]
      refine ⟨by cases n.data <;> simp [emit], ih n hn _, ?_⟩
      rintro ⟨k, v⟩ ha ⟨k', v'⟩ hb
      obtain ⟨rfl, -⟩ := mem_emit.1 ha
      obtain ⟨q, rfl, hq⟩ := (mem_preL (hl.sub n hn) _ _ _).1 hb
      have := listLk_some_ne (hl.sub n hn).heads hq
      simpa using this
    · refine h2.imp_of_mem ?_
      rintro n m hn hm hnm ⟨k, v⟩ ha ⟨k', v'⟩ hb h
      have e1 := mem_preN hl hn ha
      have e2 := mem_preN hl hm hb
      simp only at h
      subst h
      obtain ⟨r1, rfl⟩ := e1
      obtain ⟨r2, h5⟩ := e2
      simp only [List.append_assoc, List.append_cancel_left_eq] at h5
      apply hnm
      have a1 := head_of_prefix (h1 n hn) (List.prefix_append _ r1)
      have a2 := head_of_prefix (h1 m hm) (List.prefix_append _ r2)
      rw [a1, a2, h5]

end Comps.RTree
