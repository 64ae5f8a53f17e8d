import Verif.Lemmas.RadixMap

/-! # What a removal from a plain dictionary destroys -/

namespace Comps.Radix
open Comps.Spec Comps.Spec.Plain
open Comps.RTree (findAt_some matchKey_spec preN preL preN_eq preL_eq emit perm_mid set_mid eraseIdx_mid)
variable {V : Type}

mutual
/-- What is below a node begins with its key. -/
theorem preN_below (p : Bytes) : (n : Node V) → ∀ e ∈ preN p n, (p ++ n.key) <+: e.1
  | .mk key data sub tail => by
    intro e he
    rw [preN, List.mem_append] at he
    rcases he with he | he
    · cases data with
      | none => cases he
      | some v =>
        simp only [emit, List.mem_singleton] at he
        subst he
        exact List.prefix_refl _
    · exact preL_below _ sub e he
theorem preL_below (p : Bytes) : (l : List (Node V)) → ∀ e ∈ preL p l, p <+: e.1
  | [] => by simp [preL]
  | n :: ns => by
    intro e he
    rw [preL, List.mem_append] at he
    rcases he with he | he
    · exact (List.prefix_append _ _).trans (preN_below p n e he)
    · exact preL_below p ns e he
end

theorem preL_perm (p : Bytes) {l r : List (Node V)} (h : l.Perm r) : (preL p l).Perm (preL p r) := by
  rw [preL_eq, preL_eq]
  exact h.flatMap_right _

theorem perm_swap3 {α : Type} (a b c d : List α) (h : b.Perm (c ++ d)) (e : List α) :
    (a ++ b ++ e).Perm (c ++ (a ++ d ++ e)) := by
  classical
  rw [List.perm_iff_count]
  intro x
  have := h.count_eq x
  simp only [List.count_append] at this ⊢
  omega

/-- The pairs a removal takes out are those of the key and of longer ones, and it passes exactly their
values to the destructor. -/
theorem unsetLoop_pairs (c : Calls V) (hc : c.dtor = true) (fuel : Nat) (nested : Bool) (k pre : Bytes)
    (l l' : HSList (Node V)) (d : List (Option V))
    (h : unsetLoop c fuel nested k l = .ok (some (l', d))) :
    ∃ out, (preL pre l.items).Perm (out ++ preL pre l'.items) ∧ freed d = out.map (·.2) ∧
      ∀ e ∈ out, (pre ++ k) <+: e.1 := by
  induction fuel generalizing nested k pre l l' d with
  | zero => simp [unsetLoop] at h
  | succ fuel ih =>
    cases k with
    | nil => simp [unsetLoop] at h
    | cons b bs =>
      simp only [unsetLoop] at h
      cases hfd : RTree.findAt b l.items with
      | none => simp [hfd] at h
      | some r =>
        obtain ⟨i, n⟩ := r
        obtain ⟨pr, post, hitems, hi, hh⟩ := findAt_some hfd
        subst hi
        have hm := matchKey_spec bs hh
        have hp : l.items.Perm (n :: (pr ++ post)) := hitems ▸ perm_mid pr post n
        have hset : ∀ n', (l.setAt pr.length n').items.Perm (n' :: (pr ++ post)) := by
          intro n'
          simp only [HSList.setAt, hitems, set_mid]
          exact perm_mid _ _ _
        simp only [hfd] at h
        cases hmk : RTree.matchKey n.key (b :: bs) with
        | both y =>
          simp only [hmk] at h hm
          cases hnt : n.tail with
          | true =>
            simp only [hnt, if_true, destroyData, hc, bind, Except.bind] at h
            split at h
            · cases h
            cases h
            refine ⟨emit (pre ++ n.key) n.data, ?_, ?_, ?_⟩
            · refine (preL_perm pre hp).trans (List.Perm.trans ?_ ((preL_perm pre (hset _)).symm.append_left _))
              simp only [preL, preN_eq, RTree.key_mk, RTree.data_mk, RTree.sub_mk]
              simp [emit]
            · cases n.data <;> simp [emit]
            · intro e he
              cases hd : n.data with
              | none => rw [hd] at he; cases he
              | some v =>
                rw [hd] at he
                simp only [emit, List.mem_singleton] at he
                subst he
                rw [hm]
                exact List.prefix_refl _
          | false =>
            simp only [hnt, Bool.false_eq_true, if_false, bind, Except.bind] at h
            split at h
            · cases h
            cases h
            have hps : (l.removeAt pr.length).items = pr ++ post := by
              simp only [HSList.removeAt, hitems, eraseIdx_mid]
            refine ⟨preN pre n, ?_, ?_, ?_⟩
            · rw [hps]
              exact preL_perm pre hp
            · simp [dropped, hc, preN_vals]
            · rw [← hm]
              exact preN_below pre n
        | keyEnds y => simp [hmk] at h
        | differ y => simp [hmk] at h
        | nodeEnds y =>
          simp only [hmk, bind, Except.bind] at h hm
          obtain ⟨⟨a, as, h1⟩, rfl⟩ := hm
          split at h
          · cases h
          rename_i x hx
          split at h
          · cases h
          rename_i x s
          cases h
          obtain ⟨out, i1, i2, i3⟩ := ih true _ (pre ++ n.key) n.subnodes s.1 s.2 hx
          refine ⟨out, ?_, i2, ?_⟩
          · refine (preL_perm pre hp).trans (List.Perm.trans ?_ ((preL_perm pre (hset _)).symm.append_left _))
            have e1 : preL pre (n :: (pr ++ post)) =
                emit (pre ++ n.key) n.data ++ preL (pre ++ n.key) n.sub ++ preL pre (pr ++ post) := by
              rw [preL, preN_eq]
            have e2 : preL pre (Node.ofList n.key n.data s.1 :: (pr ++ post)) =
                emit (pre ++ n.key) n.data ++ preL (pre ++ n.key) s.1.items ++ preL pre (pr ++ post) := by
              rw [preL, preN_eq]
              rfl
            rw [e1, e2]
            exact perm_swap3 _ _ _ _ i1 _
          · intro e he
            have := i3 e he
            rw [h1] at this ⊢
            simpa using this

theorem pairs_live (l : HSList (Node V)) : pairs (.live l) = .ok (preL [] l.items) := by
  simp only [pairs, Store.list, bind, Except.bind, RTree.pairs_eq]

end Comps.Radix
