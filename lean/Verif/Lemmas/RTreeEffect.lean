import Verif.Lemmas.RTreeMap
import Verif.Spec.DictLost

/-!
# What a write and a removal do to the other keys, in every state
-/

namespace Comps.RTree
open Comps.Spec
variable {V : Type}

/-- A write leaves all other keys, or loses those below some place that do not extend the key. -/
theorem setLoop_effect (lt : UInt8 → UInt8 → Bool) (v : Option V) (fuel : Nat) (k : Bytes)
    (l : HSList (Node V)) (hl : WF l) :
    (∀ k', k' ≠ k → listLk (setLoop lt v [] fuel k l).1.items k' = listLk l.items k') ∨
    ∃ p, ProperPrefix p k ∧ ∀ k', k' ≠ k →
      listLk (setLoop lt v [] fuel k l).1.items k' = if Lost p k k' then none else listLk l.items k' := by
  induction fuel generalizing k l with
  | zero => left; intro k' _; cases k <;> rfl
  | succ fuel ih =>
    cases k with
    | nil => left; intro k' _; rfl
    | cons c cs =>
      have hwf := (setLoop_wf lt v (fuel + 1) (c :: cs) l hl).heads
      cases set_step lt v fuel c cs l with
      | fresh h1 h2 h3 _ =>
        left
        intro k' hk'
        rw [listLk_perm h2 hwf, listLk_cons]
        split
        · rename_i hh
          simp at hh
          rw [listLk_none (by rw [← hh]; exact h1), nodeLk_eq]
          simp [hk', listLk]
        · rfl
      | both n r h1 h2 h3 h4 _ =>
        left
        intro k' hk'
        rw [listLk_perm h3 hwf, listLk_perm h2 hl.heads]
        refine listLk_replace rfl fun _ => ?_
        rw [nodeLk_eq, nodeLk_eq]
        simp only [key_mk, data_mk, sub_mk]
        have hk'' : ¬ k' = n.key := by rw [h1]; exact hk'
        rw [if_neg hk'', if_neg hk'']
      | prefixed n r a as h1 h2 h3 h4 _ =>
        cases hlt : l.tailSet with
        | false =>
          right
          rw [hlt] at h3
          simp only [Bool.false_eq_true, if_false] at h3
          refine ⟨[], ⟨c, cs, rfl⟩, fun k' hk' => ?_⟩
          have hks : nodeLk (Node.mk (c :: cs) v [Node.mk (a :: as) n.data n.sub n.tail] true) k' =
              if (c :: cs) <+: k' then nodeLk n k' else none := by
            obtain ⟨key, d, s, t⟩ := n
            simp only [key_mk] at h1
            subst h1
            by_cases hp : (c :: cs) <+: k'
            · rw [if_pos hp]
              obtain ⟨q, rfl⟩ := hp
              rw [nodeLk_append _ _ _ _ _ _ (by simp), nodeLk_eq]
              simp only [key_mk, sub_mk]
              rw [if_neg hk', if_pos (List.prefix_append _ _)]
              simp only [List.drop_left, data_mk, tail_mk, listLk_cons, key_mk, List.head?_cons]
              split
              · rfl
              · rename_i hne
                rw [nodeLk_eq]
                simp only [key_mk]
                rw [if_neg (by rintro rfl; simp at hne), if_neg, listLk]
                intro hpre
                obtain ⟨z, rfl⟩ := hpre
                simp at hne
            · rw [nodeLk_eq, if_neg hp]
              simp only [key_mk]
              rw [if_neg hk', if_neg hp]
          rw [listLk_perm h3 hwf, listLk_perm h2 hl.heads]
          by_cases hp : (c :: cs) <+: k'
          · obtain ⟨q, rfl⟩ := hp
            have hnl : ¬ Lost [] (c :: cs) (c :: cs ++ q) := fun h => h.2.2 (List.prefix_append _ _)
            rw [if_neg hnl, listLk_cons, listLk_cons, hks]
            simp [h1]
          · have hL : listLk [Node.mk (c :: cs) v [Node.mk (a :: as) n.data n.sub n.tail] true] k' = none := by
              rw [listLk_cons, hks]
              simp [hp, listLk]
            rw [hL]
            by_cases hn : k' = []
            · subst hn
              rw [listLk_nil_key (heads_perm h2 hl.heads).1]
              simp
            · have hlo : Lost [] (c :: cs) k' := ⟨List.nil_prefix, hn, hp⟩
              rw [if_pos hlo]
        | true =>
          left
          intro k' hk'
          rw [hlt] at h3
          simp only [if_true] at h3
          rw [listLk_perm h3 hwf, listLk_perm h2 hl.heads]
          refine listLk_replace (by simp [h1]) fun _ => ?_
          · obtain ⟨key, d, s, t⟩ := n
            simp only [key_mk] at h1
            subst h1
            by_cases hp : (c :: cs) <+: k'
            · obtain ⟨q, rfl⟩ := hp
              rw [nodeLk_append _ _ _ _ _ _ (by simp), nodeLk_eq]
              simp only [key_mk, sub_mk]
              rw [if_neg hk', if_pos (List.prefix_append _ _)]
              simp only [List.drop_left, data_mk, tail_mk, listLk_cons, key_mk, List.head?_cons]
              split
              · rfl
              · rename_i hne
                rw [nodeLk_eq]
                simp only [key_mk]
                rw [if_neg (by rintro rfl; simp at hne), if_neg, listLk]
                intro hpre
                obtain ⟨z, rfl⟩ := hpre
                simp at hne
            · rw [nodeLk_not_prefix _ _ _ _ _ _ hp, nodeLk_eq]
              simp only [key_mk]
              rw [if_neg hk', if_neg hp]
      | deeper n r a as h1 h2 h3 h4 h5 _ =>
        have hs := perm_wf_sub hl h3
        have key : ∀ k', listLk (setLoop lt v [] (fuel + 1) (c :: cs) l).1.items k' =
            if n.key.head? = k'.head? ∧ k' ≠ n.key ∧ n.key <+: k' then
              listLk (setLoop lt v [] fuel (a :: as) n.subnodes).1.items (k'.drop n.key.length)
            else listLk l.items k' := by
          intro k'
          rw [listLk_perm h4 hwf, listLk_perm h3 hl.heads, listLk_cons, listLk_cons, ofList_key]
          by_cases hh : n.key.head? = k'.head?
          · rw [if_pos hh, if_pos hh, nodeLk_eq, nodeLk_eq]
            simp only [ofList_key, ofList_data, ofList_sub]
            by_cases e1 : k' = n.key
            · simp [e1]
            · by_cases e2 : n.key <+: k'
              · simp [e1, e2, hh]
              · simp [e1, e2]
          · simp [hh]
        have old : ∀ q, q ≠ [] → listLk l.items (n.key ++ q) = listLk n.subnodes.items q := by
          intro q hq
          rw [listLk_perm h3 hl.heads, listLk_cons, if_pos, nodeLk_eq, if_neg, if_pos (List.prefix_append _ _)]
          · simp
          · simpa using hq
          · obtain ⟨x, hx⟩ := head_eq_cons h2
            simp [hx]
        have hd : ∀ q, n.key.head? = (n.key ++ q).head? := by
          intro q
          obtain ⟨x, hx⟩ := head_eq_cons h2
          simp [hx]
        have new : ∀ q, q ≠ [] → listLk (setLoop lt v [] (fuel + 1) (c :: cs) l).1.items (n.key ++ q) =
            listLk (setLoop lt v [] fuel (a :: as) n.subnodes).1.items q := by
          intro q hq
          rw [key, if_pos ⟨hd q, by simpa using hq, List.prefix_append _ _⟩, List.drop_left]
        have off : ∀ k', (¬ ∃ q, q ≠ [] ∧ k' = n.key ++ q) →
            listLk (setLoop lt v [] (fuel + 1) (c :: cs) l).1.items k' = listLk l.items k' := by
          intro k' hk'
          rw [key, if_neg]
          rintro ⟨-, e, q, rfl⟩
          exact hk' ⟨q, by rintro rfl; simp at e, rfl⟩
        rcases ih (a :: as) n.subnodes hs.1 with hi | ⟨p, ⟨x, xs, hp⟩, hi⟩
        · left
          intro k' hk'
          by_cases hq : ∃ q, q ≠ [] ∧ k' = n.key ++ q
          · obtain ⟨q, hq, rfl⟩ := hq
            rw [new q hq, old q hq]
            refine hi q ?_
            rintro rfl
            exact hk' h1.symm
          · exact off k' hq
        · right
          refine ⟨n.key ++ p, ⟨x, xs, by rw [h1, hp]; simp⟩, fun k' hk' => ?_⟩
          by_cases hq : ∃ q, q ≠ [] ∧ k' = n.key ++ q
          · obtain ⟨q, hq, rfl⟩ := hq
            rw [new q hq, old q hq, hi q (by rintro rfl; exact hk' h1.symm)]
            have : Lost p (a :: as) q ↔ Lost (n.key ++ p) (c :: cs) (n.key ++ q) := by
              simp [Lost, h1, List.prefix_append_right_inj]
            simp only [this]
          · rw [off k' hq, if_neg]
            rintro ⟨⟨q, rfl⟩, h5, -⟩
            refine hq ⟨p ++ q, ?_, by simp⟩
            intro e
            simp at e
            simp [e] at h5
      | split n r p a b as bs subs h1 h2 h3 h4 h5 h6 h7 h8 _ =>
        left
        intro k' hk'
        have hsub : Heads [Node.mk (a :: as) n.data n.sub n.tail, Node.leaf (b :: bs) v] := by
          simp [Heads]; exact h3
        rw [listLk_perm h7 hwf, listLk_perm h4 hl.heads]
        refine listLk_replace (by simp [h1]) fun _ => ?_
        · obtain ⟨key, d, s, t⟩ := n
          simp only [key_mk] at h1
          subst h1
          by_cases hp : (c :: p) <+: k'
          · obtain ⟨q, rfl⟩ := hp
            rw [nodeLk_append _ _ _ _ _ _ (by simp), nodeLk_eq]
            simp only [ofList_key, ofList_data, ofList_sub]
            rw [if_pos (List.prefix_append _ _), List.drop_left,
              listLk_perm h5 (heads_perm h5.symm hsub)]
            cases q with
            | nil => simp [nodeLk_eq]
            | cons y ys =>
              simp only [List.cons_append, data_mk, tail_mk, sub_mk]
              rw [if_neg (by intro h; simpa using congrArg List.length h)]
              simp only [listLk_cons, key_mk, List.head?_cons, leaf_key]
              split
              · rfl
              · rename_i hya
                have hya : a ≠ y := by simpa using hya
                have h9 : nodeLk (Node.mk (a :: as) d s t) (y :: ys) = none := by
                  rw [nodeLk_eq]
                  simp only [key_mk]
                  rw [if_neg (by simp; intro h; exact absurd h.symm hya),
                    if_neg (by simp; intro h; exact absurd h hya)]
                rw [h9]
                split
                · rw [nodeLk_eq]
                  simp only [leaf_key, leaf_data, leaf_sub]
                  rw [if_neg]
                  · simp [listLk]
                  · intro h
                    apply hk'
                    rw [h2, h]
                · simp [listLk]
          · rw [nodeLk_not_prefix _ _ _ _ _ _ hp, nodeLk_eq]
            simp only [ofList_key]
            rw [if_neg (by rintro rfl; exact hp (List.prefix_refl _)), if_neg hp]

/-- A removal that found its key leaves all other keys, or loses those that extend the key. -/
theorem unsetLoop_effect (fuel : Nat) (nested : Bool) (k : Bytes) (l s : HSList (Node V))
    (hl : WF l) (h : unsetLoop fuel nested k l = .ok (some s)) :
    (∀ k', k' ≠ k → listLk s.items k' = listLk l.items k') ∨
    (∀ k', k' ≠ k → listLk s.items k' = if k <+: k' then none else listLk l.items k') := by
  induction fuel generalizing nested k l s with
  | zero => simp [unsetLoop] at h
  | succ fuel ih =>
    have hws := (unsetLoop_found _ _ _ _ _ hl h).1
    cases k with
    | nil => simp [unsetLoop] at h
    | cons c cs =>
      simp only [unsetLoop] at h
      cases hfd : findAt c l.items with
      | none => simp [hfd] at h
      | some r =>
        obtain ⟨i, n⟩ := r
        obtain ⟨pre, post, hitems, hi, hh⟩ := findAt_some hfd
        subst hi
        have hm := matchKey_spec cs hh
        have hp : l.items.Perm (n :: (pre ++ post)) := hitems ▸ perm_mid pre post n
        have hset : ∀ n', (l.setAt pre.length n').items.Perm (n' :: (pre ++ post)) := by
          intro n'
          simp only [HSList.setAt, hitems, set_mid]
          exact perm_mid _ _ _
        have hnl : n ∈ l.items := by rw [hitems]; simp
        have hs := perm_wf_sub hl hp
        have hheads := heads_perm hp hl.heads
        simp only [hfd] at h
        cases hmk : matchKey n.key (c :: cs) with
        | both y =>
          simp only [hmk] at h hm
          have h := Option.some.inj (ite_ok h)
          cases hnt : n.tail with
          | true =>
            left
            intro k' hk'
            simp only [hnt, if_true] at h
            subst h
            have hps := hset (Node.mk n.key none n.sub true)
            rw [listLk_perm hps hws.heads, listLk_perm hp hl.heads]
            refine listLk_replace (by simp) fun _ => ?_
            rw [nodeLk_eq, nodeLk_eq]
            simp only [key_mk, data_mk, sub_mk]
            have hk'' : ¬ k' = n.key := by rw [hm]; exact hk'
            rw [if_neg hk'', if_neg hk'']
          | false =>
            right
            intro k' hk'
            simp only [hnt, Bool.false_eq_true, if_false] at h
            subst h
            have hps : (l.removeAt pre.length).items = pre ++ post := by
              simp only [HSList.removeAt, hitems, eraseIdx_mid]
            have hno : n.key.head? = k'.head? → listLk (pre ++ post) k' = none := by
              intro hhd
              apply listLk_none
              rw [heads_cons] at hheads
              intro m hmm e
              exact hheads.2.1 m hmm (by rw [e, hhd])
            rw [hps, listLk_perm hp hl.heads]
            by_cases hpre : (c :: cs) <+: k'
            · have hhd : n.key.head? = k'.head? := by
                obtain ⟨q, rfl⟩ := hpre
                rw [hm]; rfl
              rw [hno hhd]
              simp [hpre]
            · rw [listLk_cons]
              by_cases hhd : n.key.head? = k'.head?
              · have hk'' : ¬ k' = n.key := by rw [hm]; exact hk'
                have hp'' : ¬ n.key <+: k' := by rw [hm]; exact hpre
                simp only [hhd, if_true, hno hhd, nodeLk_eq, hk'', hp'', if_false]
                simp
              · simp only [hhd, hpre, if_false]
        | keyEnds y => simp [hmk] at h
        | differ y => simp [hmk] at h
        | nodeEnds y =>
          simp only [hmk] at h hm
          obtain ⟨⟨a, as, h1⟩, rfl⟩ := hm
          have hd : (c :: cs).drop n.key.length = a :: as := by rw [h1]; simp
          rw [hd] at h
          cases hu : unsetLoop fuel true (a :: as) n.subnodes with
          | error f => simp [hu] at h
          | ok o =>
            cases o with
            | none => simp [hu] at h
            | some s' =>
              simp only [hu, Except.ok.injEq, Option.some.injEq] at h
              subst h
              have hps := hset (Node.ofList n.key n.data s')
              have key : ∀ k', (∀ q, k' = n.key ++ q → q ≠ [] → listLk s'.items q = listLk n.subnodes.items q) →
                  listLk (l.setAt pre.length (Node.ofList n.key n.data s')).items k' = listLk l.items k' := by
                intro k' hq
                rw [listLk_perm hps hws.heads, listLk_perm hp hl.heads]
                refine listLk_replace (by simp) fun _ => ?_
                rw [nodeLk_eq, nodeLk_eq]
                simp only [ofList_key, ofList_data, ofList_sub]
                by_cases e1 : k' = n.key
                · rw [if_pos e1, if_pos e1]
                · rw [if_neg e1, if_neg e1]
                  by_cases e2 : n.key <+: k'
                  · rw [if_pos e2, if_pos e2]
                    obtain ⟨q, rfl⟩ := e2
                    simp only [List.drop_left]
                    exact hq q rfl (by rintro rfl; simp at e1)
                  · rw [if_neg e2, if_neg e2]
              rcases ih true (a :: as) n.subnodes s' hs.1 hu with hi | hi
              · left
                intro k' hk'
                refine key k' fun q e _ => hi q ?_
                rintro rfl
                exact hk' (e.trans h1.symm)
              · right
                intro k' hk'
                by_cases hpre : (c :: cs) <+: k'
                · rw [if_pos hpre]
                  obtain ⟨q, rfl⟩ := hpre
                  have hq : q ≠ [] := by rintro rfl; simp at hk'
                  obtain ⟨x, hx⟩ := head_eq_cons hh
                  have e : c :: cs ++ q = n.key ++ (a :: as ++ q) := by rw [h1]; simp
                  rw [listLk_perm hps hws.heads, e, listLk_cons, ofList_key, if_pos (by simp [hx]), nodeLk_eq]
                  simp only [ofList_key, ofList_data, ofList_sub]
                  rw [if_neg (by simp), if_pos (List.prefix_append _ _), List.drop_left,
                    hi _ (by simpa using hq), if_pos (List.prefix_append _ _)]
                · rw [if_neg hpre]
                  refine key k' fun q e _ => ?_
                  rw [hi q (by rintro rfl; exact hk' (e.trans h1.symm)), if_neg]
                  intro hq
                  apply hpre
                  rw [e, h1]
                  exact (List.prefix_append_right_inj _).2 hq

end Comps.RTree
