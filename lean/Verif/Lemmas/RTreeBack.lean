import Verif.Lemmas.RTreeReach

/-!
# Lemmas: a write adds one value and loses at most others
-/

namespace Comps.RTree
open Comps.Spec
variable {V : Type}

theorem listLk_replace_imp {n n' : Node V} {r : List (Node V)} {k : Bytes} {x : V}
    (hh : n'.key.head? = n.key.head?)
    (h : n.key.head? = k.head? → nodeLk n' k = some x → nodeLk n k = some x) :
    listLk (n' :: r) k = some x → listLk (n :: r) k = some x := by
  rw [listLk_cons, listLk_cons]
  by_cases hc : n.key.head? = k.head?
  · rw [if_pos hc, if_pos (hh.trans hc)]; exact h hc
  · rw [if_neg hc, if_neg (by rw [hh]; exact hc)]; exact id

theorem listLk_drop {n : Node V} {r : List (Node V)} {k : Bytes} {x : V} {b : Bool}
    (h : listLk (n :: if b then r else []) k = some x) : listLk (n :: r) k = some x := by
  cases b with
  | true => exact h
  | false =>
    rw [listLk_cons] at h ⊢
    split
    · rename_i hc; rwa [if_pos hc] at h
    · rename_i hc; rw [if_neg hc] at h; simp [listLk] at h

/-- Whatever other key is read after a write was there before: a write only loses values. -/
theorem setLoop_back (lt : UInt8 → UInt8 → Bool) (v : Option V)
    (fuel : Nat) (k : Bytes) (l : HSList (Node V)) (hl : WF l) (k' : Bytes) (hk' : k' ≠ k) (x : V) :
    listLk (setLoop lt v [] fuel k l).1.items k' = some x → listLk l.items k' = some x := by
  induction fuel generalizing k l k' with
  | zero => cases k <;> exact id
  | succ fuel ih =>
    cases k with
    | nil => exact id
    | cons c cs =>
      have hwf := (setLoop_wf lt v (fuel + 1) (c :: cs) l hl).heads
      cases set_step lt v fuel c cs l with
      | fresh h1 h2 h3 _ =>
        rw [listLk_perm h2 hwf, listLk_cons]
        split
        · rename_i hh
          simp at hh
          rw [listLk_none (by rw [← hh]; exact h1), nodeLk_eq]
          simp [hk', listLk]
        · exact id
      | both n r h1 h2 h3 h4 _ =>
        rw [listLk_perm h3 hwf, listLk_perm h2 hl.heads]
        intro h
        refine Eq.trans (Eq.symm ?_) h
        refine listLk_replace rfl fun _ => ?_
        rw [nodeLk_eq, nodeLk_eq]
        simp only [key_mk, data_mk, sub_mk]
        have hk'' : ¬ k' = n.key := by rw [h1]; exact hk'
        rw [if_neg hk'', if_neg hk'']
      | prefixed n r a as h1 h2 h3 h4 _ =>
        rw [listLk_perm h3 hwf, listLk_perm h2 hl.heads]
        intro h
        refine Eq.trans (Eq.symm ?_) (listLk_drop h)
        refine listLk_replace (by simp [h1]) fun _ => ?_
        · obtain ⟨key, d, s, t⟩ := n
          simp only [key_mk] at h1
          subst h1
          by_cases hp : (c :: cs) <+: k'
          · obtain ⟨q, rfl⟩ := hp
            rw [nodeLk_append _ _ _ _ _ _ (by simp), nodeLk_eq]
            simp only [key_mk, sub_mk]
            rw [if_neg hk', if_pos (List.prefix_append _ _)]
            simp only [List.drop_left, data_mk, tail_mk, listLk_cons, key_mk, List.head?_cons]
            split
            · rfl
            · rename_i hne
              rw [nodeLk_eq]
              simp only [key_mk]
              rw [if_neg (by rintro rfl; simp at hne), if_neg, listLk]
              intro hpre
              obtain ⟨z, rfl⟩ := hpre
              simp at hne
          · rw [nodeLk_not_prefix _ _ _ _ _ _ hp, nodeLk_eq]
            simp only [key_mk]
            rw [if_neg hk', if_neg hp]
      | deeper n r a as h1 h2 h3 h4 h5 _ =>
        have hs := perm_wf_sub hl h3
        rw [listLk_perm h4 hwf, listLk_perm h3 hl.heads]
        refine listLk_replace_imp rfl fun _ => ?_
        · rw [nodeLk_eq, nodeLk_eq]
          simp only [ofList_key, ofList_data, ofList_sub]
          split
          · exact id
          · split
            · rename_i hpre
              obtain ⟨q, rfl⟩ := hpre
              simp only [List.drop_left]
              refine ih (a :: as) n.subnodes hs.1 q ?_
              rintro rfl
              exact hk' h1.symm
            · exact id
      | split n r p a b as bs subs h1 h2 h3 h4 h5 h6 h7 h8 _ =>
        have hsub : Heads [Node.mk (a :: as) n.data n.sub n.tail, Node.leaf (b :: bs) v] := by
          simp [Heads]; exact h3
        rw [listLk_perm h7 hwf, listLk_perm h4 hl.heads]
        intro h
        refine Eq.trans (Eq.symm ?_) h
        refine listLk_replace (by simp [h1]) fun _ => ?_
        · obtain ⟨key, d, s, t⟩ := n
          simp only [key_mk] at h1
          subst h1
          by_cases hp : (c :: p) <+: k'
          · obtain ⟨q, rfl⟩ := hp
            rw [nodeLk_append _ _ _ _ _ _ (by simp), nodeLk_eq]
            simp only [ofList_key, ofList_data, ofList_sub]
            rw [if_pos (List.prefix_append _ _), List.drop_left,
              listLk_perm h5 (heads_perm h5.symm hsub)]
            cases q with
            | nil => simp [nodeLk_eq]
            | cons y ys =>
              simp only [List.cons_append, data_mk, tail_mk, sub_mk]
              rw [if_neg (by intro h; simpa using congrArg List.length h)]
              simp only [listLk_cons, key_mk, List.head?_cons, leaf_key]
              split
              · rfl
              · rename_i hya
                have hya : a ≠ y := by simpa using hya
                have h9 : nodeLk (Node.mk (a :: as) d s t) (y :: ys) = none := by
                  rw [nodeLk_eq]
                  simp only [key_mk]
                  rw [if_neg (by simp; intro h; exact absurd h.symm hya),
                    if_neg (by simp; intro h; exact absurd h hya)]
                rw [h9]
                split
                · rw [nodeLk_eq]
                  simp only [leaf_key, leaf_data, leaf_sub]
                  rw [if_neg]
                  · simp [listLk]
                  · intro h
                    apply hk'
                    rw [h2, h]
                · simp [listLk]
          · rw [nodeLk_not_prefix _ _ _ _ _ _ hp, nodeLk_eq]
            simp only [ofList_key]
            rw [if_neg (by rintro rfl; exact hp (List.prefix_refl _)), if_neg hp]


theorem set_back (lt : UInt8 → UInt8 → Bool) {t : RTree V} (h : WF t.subnodes) {k : Bytes}
    {v : Option V} {k' : Bytes} (hk' : k' ≠ k) {x : V} (hx : (t.set lt k v).get k' = some x) :
    t.get k' = some x := by
  rw [get_eq (set_wf lt h k v)] at hx
  rw [get_eq h]
  exact setLoop_back lt v _ k _ h k' hk' x hx

/-- Writing a key that has a value leaves the other keys alone. -/
theorem setLoop_hit (lt : UInt8 → UInt8 → Bool) (v : Option V) (fuel : Nat) (k : Bytes)
    (l : HSList (Node V)) (hl : WF l) (hk : listLk l.items k ≠ none) (k' : Bytes) (hk' : k' ≠ k) :
    listLk (setLoop lt v [] fuel k l).1.items k' = listLk l.items k' := by
  induction fuel generalizing k l k' with
  | zero => cases k <;> rfl
  | succ fuel ih =>
    cases k with
    | nil => rfl
    | cons c cs =>
      have hwf := (setLoop_wf lt v (fuel + 1) (c :: cs) l hl).heads
      cases set_step lt v fuel c cs l with
      | fresh h1 h2 h3 _ => exact absurd (listLk_none (by simpa using h1)) hk
      | both n r h1 h2 h3 h4 _ =>
        rw [listLk_perm h3 hwf, listLk_perm h2 hl.heads]
        refine listLk_replace rfl fun _ => ?_
        rw [nodeLk_eq, nodeLk_eq]
        simp only [key_mk, data_mk, sub_mk]
        have hk'' : ¬ k' = n.key := by rw [h1]; exact hk'
        rw [if_neg hk'', if_neg hk'']
      | prefixed n r a as h1 h2 h3 h4 h5 =>
        exfalso
        have hn : n ∈ l.items := h2.mem_iff.2 (by simp)
        have x1 : ¬ c :: cs = n.key := by rw [h1]; intro h; simpa using congrArg List.length h
        have x2 : ¬ n.key <+: c :: cs := by
          intro h; have := h.length_le; rw [h1] at this; simp at this; omega
        apply hk
        rw [listLk_of_mem hl.pw hn (by simp [h1]), nodeLk_eq, if_neg x1, if_neg x2]
      | deeper n r a as h1 h2 h3 h4 h5 _ =>
        have hn : n ∈ l.items := h3.mem_iff.2 (by simp)
        have hs := perm_wf_sub hl h3
        have x1 : ¬ c :: cs = n.key := by rw [h1]; intro h; simpa using congrArg List.length h
        have x2 : n.key <+: c :: cs := by rw [h1]; simp
        rw [listLk_of_mem hl.pw hn (by simpa using h2), nodeLk_eq, if_neg x1, if_pos x2] at hk
        have hdd : (c :: cs).drop n.key.length = a :: as := by rw [h1]; simp
        rw [hdd] at hk
        rw [listLk_perm h4 hwf, listLk_perm h3 hl.heads]
        refine listLk_replace rfl fun _ => ?_
        · rw [nodeLk_eq, nodeLk_eq]
          simp only [ofList_key, ofList_data, ofList_sub]
          split
          · rfl
          · split
            · rename_i hpre
              obtain ⟨q, rfl⟩ := hpre
              simp only [List.drop_left]
              refine ih (a :: as) n.subnodes hs.1 hk q ?_
              rintro rfl
              exact hk' h1.symm
            · rfl
      | split n r p a b as bs subs h1 h2 h3 h4 h5 h6 h7 h8 _ =>
        exfalso
        have hn : n ∈ l.items := h4.mem_iff.2 (by simp)
        have x1 : ¬ c :: cs = n.key := by
          rw [h1, h2]; simp only [List.append_cancel_left_eq]; simp; intro h; exact absurd h.symm h3
        have x2 : ¬ n.key <+: c :: cs := by
          rw [h1, h2, List.prefix_append_right_inj]; simp [h3]
        apply hk
        rw [listLk_of_mem hl.pw hn (by simp [h1]), nodeLk_eq, if_neg x1, if_neg x2]

theorem set_hit (lt : UInt8 → UInt8 → Bool) {t : RTree V} (h : WF t.subnodes) {k : Bytes}
    (v : Option V) (hk : t.get k ≠ none) {k' : Bytes} (hk' : k' ≠ k) :
    (t.set lt k v).get k' = t.get k' := by
  rw [get_eq h] at hk
  rw [get_eq (set_wf lt h k v), get_eq h]
  exact setLoop_hit lt v _ k _ h hk k' hk'

theorem set_nil (lt : UInt8 → UInt8 → Bool) (t : RTree V) (v : Option V) : t.set lt [] v = t := by
  simp [RTree.set, setLoop]

theorem get_nil (t : RTree V) : t.get [] = none := by
  simp [RTree.get, getLoop]

/-! ### How often a value is stored -/

theorem count_le_of_subset [DecidableEq V] (a : V) (l' : List (Bytes × V)) :
    ∀ m : List (Bytes × V), (l'.Pairwise fun x y => x.1 ≠ y.1) → (∀ e ∈ l', e ∈ m) →
      (l'.map (·.2)).count a ≤ (m.map (·.2)).count a := by
  induction l' with
  | nil => intro m _ _; simp
  | cons e es ih =>
    intro m hp hm
    rw [List.pairwise_cons] at hp
    obtain ⟨x, y, rfl⟩ := List.append_of_mem (hm e (by simp))
    have h := ih (x ++ y) hp.2 (by
      intro e' he'
      have := hm e' (by simp [he'])
      have hne : e' ≠ e := fun h => hp.1 e' he' (by rw [h])
      simp only [List.mem_append, List.mem_cons] at this ⊢
      rcases this with h | h | h
      · exact .inl h
      · exact absurd h hne
      · exact .inr h)
    simp only [List.map_cons, List.map_append, List.count_cons, List.count_append] at h ⊢
    omega

/-- How many keys hold the value `a`. -/
def uses [DecidableEq V] (t : RTree V) (a : V) : Nat := t.values.count a

theorem uses_eq [DecidableEq V] (t : RTree V) (a : V) : t.uses a = (t.pairs.map (·.2)).count a := rfl

theorem uses_congr [DecidableEq V] {t t' : RTree V} (h : WF t.subnodes) (h' : WF t'.subnodes)
    (hg : ∀ k, t'.get k = t.get k) (a : V) : t'.uses a = t.uses a := by
  rw [uses_eq, uses_eq]
  apply Nat.le_antisymm
  · exact count_le_of_subset a _ _ (pairs_nodup h') fun e he =>
      (mem_pairs h _ _).2 ((hg e.1) ▸ (mem_pairs h' e.1 e.2).1 he)
  · exact count_le_of_subset a _ _ (pairs_nodup h) fun e he =>
      (mem_pairs h' _ _).2 ((hg e.1).symm ▸ (mem_pairs h e.1 e.2).1 he)

theorem uses_pos [DecidableEq V] {t : RTree V} (h : WF t.subnodes) {k : Bytes} {a : V}
    (hk : t.get k = some a) : 0 < t.uses a := by
  rw [uses_eq]
  exact List.count_pos_iff.2 (List.mem_map.2 ⟨(k, a), (mem_pairs h k a).2 hk, rfl⟩)

/-- 1 when the proposition holds. -/
def one (p : Prop) [Decidable p] : Nat := if p then 1 else 0

theorem uses_split [DecidableEq V] {t : RTree V} (h : WF t.subnodes) (k : Bytes) (a : V) :
    ((t.pairs.filter (·.1 ≠ k)).map (·.2)).count a + one (t.get k = some a) = t.uses a := by
  rw [uses_eq]
  have hnd := pairs_nodup h
  have hm := fun v => mem_pairs h k v
  generalize t.get k = g at hm
  generalize t.pairs = l at *
  induction l generalizing g with
  | nil =>
    cases g with
    | none => simp [one]
    | some v => simpa using hm v
  | cons e es ih =>
    rw [List.pairwise_cons] at hnd
    by_cases he : e.1 = k
    · have hg : g = some e.2 := by rw [← hm e.2, ← he]; simp
      have hes : es.filter (·.1 ≠ k) = es := by
        rw [List.filter_eq_self]
        intro e' he'
        have := hnd.1 e' he'
        simp only [ne_eq, decide_not, Bool.not_eq_eq_eq_not, Bool.not_true, decide_eq_false_iff_not]
        rw [← he]
        exact fun h => this h.symm
      rw [List.filter_cons_of_neg (by simpa using he), hes, hg]
      simp only [List.map_cons, List.count_cons, one, Option.some.injEq, beq_iff_eq]
    · rw [List.filter_cons_of_pos (by simpa using he)]
      have := ih g hnd.2 fun v => by
        rw [← hm v, List.mem_cons]
        constructor
        · exact .inr
        · rintro (h | h)
          · exact absurd (by rw [← h]) he
          · exact h
      simp only [List.map_cons, List.count_cons]
      omega

/-- A write stores the value at most once more and takes away the one it replaces. -/
theorem uses_set_le [DecidableEq V] (lt : UInt8 → UInt8 → Bool) {t : RTree V} (h : WF t.subnodes)
    (k : Bytes) (v a : V) :
    (t.set lt k (some v)).uses a + one (t.get k = some a) ≤ t.uses a + one (v = a) := by
  have hw := set_wf lt h k (some v)
  rw [← uses_split h k a]
  have : (t.set lt k (some v)).uses a ≤
      (((k, v) :: t.pairs.filter (·.1 ≠ k)).map (·.2)).count a := by
    rw [uses_eq]
    refine count_le_of_subset a _ _ (pairs_nodup hw) ?_
    rintro ⟨k', x⟩ he
    have hx := (mem_pairs hw _ _).1 he
    by_cases hk : k' = k
    · subst hk
      by_cases hn : k' = []
      · subst hn; rw [get_nil] at hx; simp at hx
      · rw [set_get lt h _ hn] at hx
        cases hx
        simp
    · refine List.mem_cons_of_mem _ (List.mem_filter.2 ⟨?_, by simpa using hk⟩)
      exact (mem_pairs h _ _).2 (set_back lt h hk hx)
  simp only [List.map_cons, List.count_cons, beq_iff_eq] at this
  simp only [one] at *
  omega

/-- A write that leaves other keys alone stores the value exactly once more. -/
theorem uses_set_eq [DecidableEq V] (lt : UInt8 → UInt8 → Bool) {t : RTree V} (h : WF t.subnodes)
    {k : Bytes} (hk : k ≠ []) (v a : V)
    (hf : ∀ k', k' ≠ k → (t.set lt k (some v)).get k' = t.get k') :
    (t.set lt k (some v)).uses a + one (t.get k = some a) = t.uses a + one (v = a) := by
  apply Nat.le_antisymm (uses_set_le lt h k v a)
  have hw := set_wf lt h k (some v)
  rw [← uses_split h k a]
  have : (((k, v) :: t.pairs.filter (·.1 ≠ k)).map (·.2)).count a ≤
      (t.set lt k (some v)).uses a := by
    rw [uses_eq]
    refine count_le_of_subset a _ _ ?_ ?_
    · rw [List.pairwise_cons]
      refine ⟨?_, (pairs_nodup h).filter _⟩
      intro e he
      have := (List.mem_filter.1 he).2
      simp at this
      exact fun h => this h.symm
    · rintro ⟨k', x⟩ he
      rw [mem_pairs hw]
      rcases List.mem_cons.1 he with he | he
      · cases he
        exact set_get lt h _ hk _
      · have h2 := List.mem_filter.1 he
        have h3 : k' ≠ k := by simpa using h2.2
        rw [hf k' h3]
        exact (mem_pairs h _ _).1 h2.1
  simp only [List.map_cons, List.count_cons, beq_iff_eq] at this
  simp only [one] at *
  omega

theorem mem_keys_set (lt : UInt8 → UInt8 → Bool) {t : RTree V} (h : WF t.subnodes) {k k' : Bytes}
    {v : V} (hm : k' ∈ (t.set lt k (some v)).keys) : k' = k ∨ k' ∈ t.keys := by
  rw [mem_keys (set_wf lt h _ _)] at hm
  by_cases hk : k' = k
  · exact .inl hk
  · right
    rw [mem_keys h]
    cases hg : (t.set lt k (some v)).get k' with
    | none => exact absurd hg hm
    | some x => rw [set_back lt h hk hg]; simp

end Comps.RTree
