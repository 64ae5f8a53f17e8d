import Verif.Lemmas.MRTree

/-!
# What exactly writes to and removals from multi-dictionaries do
-/

namespace Comps.MTree
open Comps Comps.Spec Comps.RTree
variable {V : Type}

theorem prefix_branch {x p : Bytes} {a b : UInt8} {as bs : Bytes} (hab : a ≠ b)
    (h1 : x <+: p ++ a :: as) (h2 : x <+: p ++ b :: bs) : x <+: p := by
  induction p generalizing x with
  | nil =>
    cases x with
    | nil => exact List.nil_prefix
    | cons c cs =>
      simp only [List.nil_append, List.cons_prefix_cons] at h1 h2
      exact absurd (h1.1.symm.trans h2.1) hab
  | cons c p ih =>
    cases x with
    | nil => exact List.nil_prefix
    | cons d ds =>
      simp only [List.cons_append, List.cons_prefix_cons] at h1 h2 ⊢
      exact ⟨h1.1, ih h1.2 h2.2⟩

theorem branch_unique {p p' : Bytes} {a b a' b' : UInt8} {as bs as' bs' : Bytes} (h : a ≠ b) (h' : a' ≠ b')
    (e1 : p ++ a :: as = p' ++ a' :: as') (e2 : p ++ b :: bs = p' ++ b' :: bs') : p = p' := by
  have h1 : p <+: p' := prefix_branch h' (e1 ▸ List.prefix_append _ _) (e2 ▸ List.prefix_append _ _)
  have h2 : p' <+: p := prefix_branch h (e1.symm ▸ List.prefix_append _ _) (e2.symm ▸ List.prefix_append _ _)
  exact h1.eq_of_length_le h2.length_le

/-- What is found under a key goes through the node with its first byte. -/
theorem listLk_through {l : HSList (MNode V)} {n : MNode V} {r : List (MNode V)} (hl : WF l)
    (hp : l.items.Perm (n :: r)) {k : Bytes} (h : n.key.head? = k.head?)
    (hs : (listLk l.items k).isSome = true) : n.key <+: k := by
  rw [listLk_head hl hp h, nodeLk_eq] at hs
  split at hs
  · rename_i e; rw [e]; exact List.prefix_refl _
  · split at hs
    · assumption
    · simp at hs

theorem listLk_below {l : HSList (MNode V)} {n : MNode V} {r : List (MNode V)} (hl : WF l)
    (hp : l.items.Perm (n :: r)) (w : Bytes) :
    listLk l.items (n.key ++ w) = if w = [] then n.data else listLk n.sub w := by
  have hne : n.key ≠ [] := hl.ne n (hp.mem_iff.2 (by simp))
  rw [listLk_head hl hp (head_append hne).symm, nodeLk_eq]
  by_cases e : w = []
  · subst e; simp
  · rw [if_neg (by simpa using e), if_pos (List.prefix_append _ _), List.drop_left, if_neg e]

theorem head_prefix {p q : Bytes} (hp : p ≠ []) (h : p <+: q) : p.head? = q.head? := head_of_prefix hp h

theorem setLoop_split (v : List (MVal V)) (fuel : Nat) (k : Bytes) (l : HSList (MNode V)) (hl : WF l)
    (ht : Tailed l) (hd : Full l) (hf : k.length ≤ fuel) (p : Bytes)
    (hs : Splits (listLk l.items) k p) :
    ∃ q0, (listLk l.items q0).isSome = true ∧ p <+: q0 ∧
      (∀ q, (listLk l.items q).isSome = true → p <+: q → q0 <+: q) ∧
      listLk l.items k = none ∧
      ∀ x, listLk (setLoop v fuel k l).items x =
        if x = k then some v else if x = p then some []
        else if x = q0 then some [.nested ((listLk l.items q0).getD [])] else listLk l.items x := by
  induction fuel generalizing k l p with
  | zero =>
    obtain ⟨-, -, a, as, b, bs, -, rfl, -⟩ := hs
    simp at hf
  | succ fuel ih =>
    obtain ⟨hpne, hpn, a, as, b, bs, hab, hk, hex⟩ := hs
    cases k with
    | nil => simp at hk
    | cons c cs =>
      have hhead : p.head? = some c := by
        rw [head_prefix hpne (List.prefix_append p (b :: bs)), ← hk]; rfl
      have hhead' : (p ++ a :: as).head? = some c := by rw [head_append hpne, hhead]
      have hwf := (setLoop_wf v (fuel + 1) (c :: cs) l hl).heads
      have through : ∀ (n : MNode V) (r : List (MNode V)), l.items.Perm (n :: r) →
          n.key.head? = some c → n.key <+: p ++ a :: as := fun n r h1 h2 =>
        listLk_through hl h1 (by rw [h2, hhead']) hex
      cases set_step v fuel c cs l with
      | fresh h1 h2 h3 =>
        rw [listLk_none (k := p ++ a :: as) (by rw [hhead']; exact h1)] at hex
        simp at hex
      | both n r h1 h2 h3 h4 =>
        have := prefix_branch hab (through n r h2 (by rw [h1]; rfl)) (by
          rw [← hk, h1]; exact List.prefix_refl _)
        rw [h1, hk] at this
        have := this.length_le
        simp only [List.length_append, List.length_cons] at this
        omega
      | prefixed n r a' as' h1 h2 h3 h4 =>
        have h0 := through n r h2 (by rw [h1]; rfl)
        have := prefix_branch hab ((List.prefix_append (c :: cs) (a' :: as')).trans (h1 ▸ h0)) (by
          rw [← hk]; exact List.prefix_refl _)
        rw [hk] at this
        have := this.length_le
        simp only [List.length_append, List.length_cons] at this
        omega
      | deeper n r a' as' h1 h2 h3 h4 h5 =>
        have hsub := perm_wf_sub hl h3
        obtain ⟨-, t2, -⟩ := tailed_perm ht h3
        have hfl := full_perm hd h3
        simp only [List.mem_cons, forall_eq_or_imp] at hfl
        have hne : n.key ≠ [] := hl.ne n (h3.mem_iff.2 (by simp))
        obtain ⟨p', rfl⟩ := prefix_branch hab (through n r h3 h2) (by
          rw [← hk, h1]; exact List.prefix_append _ _)
        have hp' : p' ≠ [] := by
          rintro rfl
          rw [listLk_below hl h3] at hpn
          simp only [if_true] at hpn
          rw [hpn] at hfl
          simp at hfl
        have hk' : a' :: as' = p' ++ b :: bs := by
          have := h1.symm.trans hk
          simpa using this
        rw [listLk_below hl h3, if_neg hp'] at hpn
        rw [List.append_assoc, listLk_below hl h3, if_neg (by simp)] at hex
        obtain ⟨q0, i1, i2, i3, i4, i5⟩ := ih (a' :: as') n.subnodes hsub.1 t2 hfl.1.2 (by
            have hlen := congrArg List.length h1
            have : 0 < n.key.length := List.length_pos_iff.2 hne
            simp only [List.length_append, List.length_cons] at hlen hf ⊢
            omega) p' ⟨hp', hpn, a, as, b, bs, hab, hk', hex⟩
        have hq0 : q0 ≠ [] := by
          rintro rfl
          exact hp' (List.prefix_nil.1 i2)
        have below : ∀ w, listLk l.items (n.key ++ w) = if w = [] then n.data else listLk n.sub w :=
          listLk_below hl h3
        refine ⟨n.key ++ q0, ?_, ?_, ?_, ?_, ?_⟩
        · rw [below, if_neg hq0]; exact i1
        · exact (List.prefix_append_right_inj _).2 i2
        · intro q hq hpq
          obtain ⟨w, rfl⟩ : n.key <+: q := (List.prefix_append _ _).trans hpq
          have hw := (List.prefix_append_right_inj _).1 hpq
          rw [below] at hq
          split at hq
          · rename_i e; subst e; exact absurd (List.prefix_nil.1 hw) hp'
          · exact (List.prefix_append_right_inj _).2 (i3 w hq hw)
        · rw [h1, below, if_neg (by simp)]; exact i4
        · intro x
          have hh' : (Node.ofList n.key n.data (setLoop v fuel (a' :: as') n.subnodes)).key.head? =
              n.key.head? := by simp
          rw [listLk_perm h4 hwf, listLk_cons, hh']
          by_cases hx : n.key.head? = x.head?
          · rw [if_pos hx, nodeLk_eq]
            simp only [ofList_key, ofList_data, ofList_sub]
            by_cases hpx : n.key <+: x
            · obtain ⟨w, rfl⟩ := hpx
              rw [if_pos (List.prefix_append _ _), List.drop_left, i5, h1, below, below, if_neg hq0]
              simp only [List.append_cancel_left_eq, List.append_right_eq_self]
              by_cases e : w = []
              · subst e
                simp [hp'.symm, hq0.symm]
              · simp only [e, if_false]; rfl
            · rw [if_neg (by rintro rfl; exact hpx (List.prefix_refl _)), if_neg hpx,
                if_neg (by rintro rfl; exact hpx (h1 ▸ List.prefix_append _ _)),
                if_neg (by rintro rfl; exact hpx (List.prefix_append _ _)),
                if_neg (by rintro rfl; exact hpx (List.prefix_append _ _))]
              cases hlx : listLk l.items x with
              | none => rfl
              | some y => exact absurd (listLk_through hl h3 hx (by rw [hlx]; rfl)) hpx
          · have off : ∀ y, n.key <+: y → x ≠ y := by
              rintro y hy rfl
              exact hx (head_prefix hne hy)
            rw [if_neg hx, if_neg (off _ (h1 ▸ List.prefix_append _ _)),
              if_neg (off _ (List.prefix_append _ _)), if_neg (off _ (List.prefix_append _ _)),
              listLk_perm h3 hl.heads, listLk_cons, if_neg hx]
      | split n r p0 a0 b0 as0 bs0 subs h1 h2 h3 h4 h5 h6 h7 h8 =>
        have hfl := full_perm hd h4
        simp only [List.mem_cons, forall_eq_or_imp] at hfl
        have hh : n.key.head? = some c := by rw [h1]; rfl
        have hne : n.key ≠ [] := by rw [h1]; simp
        obtain ⟨w, hw⟩ := through n r h4 hh
        have hp : c :: p0 = p := branch_unique (as := as0 ++ w) h3 hab (by rw [← hw, h1]; simp)
          (h2.symm.trans hk)
        subst hp
        have hstep : ∀ x, listLk (setLoop v (fuel + 1) (c :: cs) l).items x =
            if some c = x.head? then
              nodeLk (Node.ofList (c :: p0) (some []) subs) x else listLk l.items x := by
          intro x
          rw [listLk_perm h7 hwf, listLk_cons, listLk_perm h4 hl.heads, listLk_cons, hh]
          simp only [ofList_key, List.head?_cons]
          by_cases hx : some c = x.head?
          · simp [hx]
          · simp [hx]
        have below : ∀ q, (listLk l.items q).isSome = true → c :: p0 <+: q → n.key <+: q := by
          intro q hq hpq
          exact listLk_through hl h4 (by rw [hh, ← head_prefix (by simp) hpq]; rfl) hq
        refine ⟨n.key, ?_, ?_, below, ?_, ?_⟩
        · have := listLk_below hl h4 []
          simp only [List.append_nil, if_true] at this
          rw [this]; exact hfl.1.1
        · rw [h1]; exact List.prefix_append _ _
        · cases hlk : listLk l.items (c :: cs) with
          | none => rfl
          | some y =>
            have := below (c :: cs) (by rw [hlk]; rfl) (by rw [h2]; exact List.prefix_append _ _)
            rw [h1, h2] at this
            have := (List.prefix_append_right_inj _).1 this
            exact absurd (List.cons_prefix_cons.1 this).1 h3
        · intro x
          rw [hstep]
          by_cases hx : some c = x.head?
          · rw [if_pos hx, nodeLk_eq]
            simp only [ofList_key, ofList_data, ofList_sub]
            have hsubh : Heads [Node.mk (a0 :: as0) (some [MVal.nested (n.data.getD [])]) n.sub n.tail,
                Node.leaf (b0 :: bs0) (some v)] := by
              rw [heads_cons]
              refine ⟨by simp, ?_, ?_⟩
              · intro m hm
                simp only [List.mem_cons, List.not_mem_nil, or_false] at hm
                subst hm
                simpa using h3
              · rw [heads_cons]
                exact ⟨by simp, by simp, by simp [Heads]⟩
            by_cases hpx : c :: p0 <+: x
            · obtain ⟨w, rfl⟩ := hpx
              rw [if_pos (List.prefix_append _ _), List.drop_left,
                listLk_perm h5 (heads_perm h5.symm hsubh), h1, h2]
              by_cases e : w = []
              · subst e
                simp
              · have e' : ¬ (c :: p0 ++ w = c :: p0) := by simpa using e
                rw [if_neg e', if_neg e']
                have c1 : (c :: p0 ++ w = c :: p0 ++ b0 :: bs0) = (w = b0 :: bs0) := by simp
                have c2 : (c :: p0 ++ w = c :: p0 ++ a0 :: as0) = (w = a0 :: as0) := by simp
                simp only [c1, c2]
                have hdat : listLk l.items (c :: p0 ++ a0 :: as0) = n.data := by
                  have := listLk_below hl h4 []
                  simp only [List.append_nil, if_true] at this
                  rw [← h1]; exact this
                have hthru : listLk l.items (c :: p0 ++ w) =
                    if a0 :: as0 <+: w then
                      (if w = a0 :: as0 then n.data else listLk n.sub (w.drop (a0 :: as0).length))
                    else none := by
                  rw [listLk_head hl h4 (by rw [hh]; rfl), nodeLk_eq, h1]
                  simp only [c2, List.prefix_append_right_inj]
                  split
                  · rename_i e; rw [if_pos (by rw [e]; exact List.prefix_refl _)]
                  · rename_i e
                    split
                    · rename_i hpr
                      obtain ⟨z, rfl⟩ := hpr
                      rw [← List.append_assoc, List.drop_left, List.drop_left]
                    · rfl
                rw [listLk_cons, listLk_cons, hdat, hthru]
                simp only [key_mk, leaf_key, List.head?_cons]
                by_cases hw1 : w = b0 :: bs0
                · subst hw1
                  simp [fun e => h3 e, nodeLk_eq]
                · rw [if_neg hw1]
                  cases w with
                  | nil => simp at e
                  | cons d ds =>
                    simp only [List.head?_cons, Option.some.injEq, List.cons_prefix_cons]
                    by_cases hd1 : a0 = d
                    · subst hd1
                      simp only [if_true, true_and]
                      rw [nodeLk_eq]
                      simp only [key_mk, data_mk, sub_mk]
                      by_cases hds : a0 :: ds = a0 :: as0
                      · simp [hds]
                      · rw [if_neg hds, if_neg hds]
                        simp only [List.cons_prefix_cons, true_and]
                        split <;> rfl
                    · rw [if_neg hd1]
                      have : ¬ (d :: ds = a0 :: as0) := by intro e; simp at e; exact hd1 e.1.symm
                      rw [if_neg this]
                      simp only [hd1, false_and, if_false]
                      by_cases hd2 : b0 = d
                      · subst hd2
                        simp only [if_true, nodeLk_eq, leaf_key, leaf_sub]
                        rw [if_neg hw1]
                        split <;> simp [listLk]
                      · simp [hd2, listLk]
            · rw [if_neg (by rintro rfl; exact hpx (List.prefix_refl _)), if_neg hpx,
                if_neg (by rintro rfl; exact hpx (h2 ▸ List.prefix_append _ _)),
                if_neg (by rintro rfl; exact hpx (List.prefix_refl _)),
                if_neg (by rintro rfl; exact hpx (h1 ▸ List.prefix_append _ _))]
              cases hlx : listLk l.items x with
              | none => rfl
              | some y =>
                have := listLk_through hl h4 (by rw [hh, ← hx]) (k := x) (by rw [hlx]; rfl)
                exact absurd ((h1 ▸ List.prefix_append (c :: p0) (a0 :: as0)).trans this) hpx
          · have off : ∀ y : Bytes, y.head? = some c → x ≠ y := by
              rintro y hy rfl; exact hx hy.symm
            rw [if_neg hx, if_neg (off _ rfl), if_neg (off _ rfl), if_neg (off _ hh)]

theorem setLoop_wrote (v : List (MVal V)) (k : Bytes) (l : HSList (MNode V)) (hl : WF l)
    (ht : Tailed l) (hd : Full l) (hk : k ≠ []) :
    Wrote (listLk l.items) k v (listLk (setLoop v k.length k l).items) := by
  by_cases h : ∃ p, Splits (listLk l.items) k p
  · obtain ⟨p, hp⟩ := h
    obtain ⟨q0, h1, h2, h3, h4, h5⟩ := setLoop_split v _ k l hl ht hd (Nat.le_refl _) p hp
    have hpk : p ≠ k := by
      obtain ⟨-, -, a, as, b, bs, -, e, -⟩ := hp
      rw [e]; intro h; simpa using congrArg List.length h
    have hnotp : q0 ≠ p := by
      rintro rfl
      rw [hp.2.1] at h1; simp at h1
    -- the place is unique
    have uniq : ∀ p', Splits (listLk l.items) k p' → p' = p := by
      intro p' hp'
      obtain ⟨-, n1, a, as, b, bs, hab, e, s1⟩ := hp
      obtain ⟨hp0', n2, a', as', b', bs', hab', e', s2⟩ := hp'
      have hq : ∀ z, (listLk l.items z).isSome = true → p <+: z → q0 <+: z := h3
      rcases List.prefix_or_prefix_of_prefix (e ▸ List.prefix_append p (b :: bs))
        (e' ▸ List.prefix_append p' (b' :: bs')) with hpp | hpp
      · -- p is a prefix of p'
        obtain ⟨z, rfl⟩ := hpp
        cases z with
        | nil => simp
        | cons z zs =>
          have e2 : p ++ b :: bs = p ++ (z :: zs ++ b' :: bs') := by
            rw [← e, e', List.append_assoc]
          have e3 := List.append_cancel_left e2
          simp only [List.cons_append, List.cons.injEq] at e3
          obtain ⟨rfl, -⟩ := e3
          have g1 := hq _ s1 (List.prefix_append _ _)
          have g2 := hq _ s2 (by rw [List.append_assoc]; exact List.prefix_append _ _)
          rw [List.append_assoc, List.cons_append] at g2
          have := prefix_branch hab g1 g2
          exact absurd (this.eq_of_length_le h2.length_le) hnotp
      · obtain ⟨z, rfl⟩ := hpp
        cases z with
        | nil => simp
        | cons z zs =>
          have e2 : p' ++ b' :: bs' = p' ++ (z :: zs ++ b :: bs) := by
            rw [← e', e, List.append_assoc]
          have e3 := List.append_cancel_left e2
          simp only [List.cons_append, List.cons.injEq] at e3
          obtain ⟨rfl, -⟩ := e3
          -- q0 extends p = p' ++ b' :: zs; s2 is a key p' ++ a' ...
          exfalso
          obtain ⟨q1, j1, j2, j3, -, -⟩ := setLoop_split v _ k l hl ht hd (Nat.le_refl _) p'
            ⟨hp0', n2, a', as', b', _, hab', e', s2⟩
          have g1 := j3 _ s2 (List.prefix_append _ _)
          have g2 := j3 _ s1 (by rw [List.append_assoc]; exact List.prefix_append _ _)
          rw [List.append_assoc, List.cons_append] at g2
          have := prefix_branch hab' g1 g2
          have := this.eq_of_length_le j2.length_le
          rw [this, n2] at j1
          simp at j1
    have first : ∀ q, First (listLk l.items) p q ↔ q = q0 := by
      intro q
      constructor
      · rintro ⟨f1, f2, f3⟩
        exact (f3 q0 h2 (h3 q f2 f1) h1).symm
      · rintro rfl
        exact ⟨h2, h1, fun q' a b c => b.eq_of_length_le (h3 q' c a).length_le⟩
    have hq0k : q0 ≠ k := by rintro rfl; rw [h4] at h1; simp at h1
    refine ⟨?_, ?_, ?_, ?_, fun _ _ => h4⟩
    · rw [h5, if_pos rfl, h4]; rfl
    · intro p' hp'
      rw [uniq p' hp', h5, if_neg hpk, if_pos rfl]
    · intro p' q hp' hf
      rw [uniq p' hp'] at hf
      rw [(first q).1 hf, h5, if_neg hq0k, if_neg hnotp, if_pos rfl]
    · intro q hqk hns hnf
      rw [h5, if_neg hqk, if_neg (by rintro rfl; exact hns hp),
        if_neg (by rintro rfl; exact hnf p hp ((first _).2 rfl))]
  · have hns : NoSplit l.items k := by
      intro p a b as bs e hp hab hs
      cases hlp : listLk l.items p with
      | some y => rfl
      | none => exact absurd ⟨p, hp, hlp, a, as, b, bs, hab, e, hs⟩ h
    have hx := setLoop_lk v _ k l hl ht hd hk (Nat.le_refl _) hns
    refine ⟨?_, fun p hp => absurd ⟨p, hp⟩ h, fun p _ hp => absurd ⟨p, hp⟩ h, ?_,
      fun p hp => absurd ⟨p, hp⟩ h⟩
    · rw [hx, if_pos rfl]
    · intro q hq _ _
      rw [hx, if_neg hq]

theorem setVal_wrote {t : MTree V} (h : Ok t) (k : Bytes) (hk : k ≠ []) (v : MVal V) :
    Wrote (get t) k [v] (get (setVal t k v)) := by
  have e1 : get t = listLk t.subnodes.items := funext fun _ => get_eq h.wf _
  have e2 : get (setVal t k v) = listLk (setVal t k v).subnodes.items :=
    funext fun _ => get_eq (ok_setVal h k v).wf _
  rw [e1, e2]
  exact setLoop_wrote [v] k _ h.wf h.tailed h.full hk

/-! ## Removal -/

/-- A list with a node has a key. -/
theorem full_some {l : HSList (MNode V)} (hl : WF l) (hd : Full l) {n : MNode V} (hn : n ∈ l.items) :
    (listLk l.items n.key).isSome = true := by
  obtain ⟨s, t, e⟩ := List.append_of_mem hn
  have hp : l.items.Perm (n :: (s ++ t)) := e ▸ perm_mid s t n
  have := listLk_below hl hp []
  simp only [List.append_nil, if_true] at this
  rw [this]
  exact (full_perm hd hp n (by simp)).1

/-- `k` is the only key below, or the only key that extends another key. -/
def Alone (g : Bytes → Option (List (MVal V))) (nested : Bool) (k : Bytes) : Prop :=
  (nested = true ∧ ∀ q, (g q).isSome = true → q = k) ∨
    ∃ p, p ≠ k ∧ p <+: k ∧ (g p).isSome = true ∧ ∀ q, (g q).isSome = true → p <+: q → q = p ∨ q = k

theorem unsetLoop_fault (fuel : Nat) (nested : Bool) (k : Bytes) (l : HSList (MNode V)) (hl : WF l)
    (ht : Tailed l) (hd : Full l) (hf : k.length ≤ fuel) :
    (∀ f, unsetLoop fuel nested k l = .error f → f = .useAfterFree) ∧
    ((∃ f, unsetLoop fuel nested k l = .error f) ↔
      (listLk l.items k).isSome = true ∧ Alone (listLk l.items) nested k) ∧
    ∀ s d, unsetLoop fuel nested k l = .ok (some (s, d)) →
      ((∀ q, (listLk l.items q).isSome = true → k <+: q → q = k) → listLk s.items k = none) ∧
      (∀ q, (listLk l.items q).isSome = true → k <+: q → q ≠ k → listLk s.items k = some []) := by
  induction fuel generalizing nested k l with
  | zero =>
    cases k with
    | nil => simp [unsetLoop, listLk_nil_key hl.heads.1]
    | cons c cs => simp at hf
  | succ fuel ih =>
    cases k with
    | nil => simp [unsetLoop, listLk_nil_key hl.heads.1]
    | cons c cs =>
      simp only [unsetLoop]
      cases hfd : findAt c l.items with
      | none => simp [listLk_none (k := c :: cs) (findAt_none hfd)]
      | some r =>
        obtain ⟨i, n⟩ := r
        obtain ⟨pre, post, hitems, hi, hh⟩ := findAt_some hfd
        subst hi
        have hm := matchKey_spec cs hh
        have hp : l.items.Perm (n :: (pre ++ post)) := hitems ▸ perm_mid pre post n
        have hset : ∀ n', (l.setAt pre.length n').items.Perm (n' :: (pre ++ post)) := by
          intro n'
          simp only [HSList.setAt, hitems, set_mid]
          exact perm_mid _ _ _
        have hs := perm_wf_sub hl hp
        obtain ⟨t1, t2, t3⟩ := tailed_perm ht hp
        have hfl := full_perm hd hp
        simp only [List.mem_cons, forall_eq_or_imp] at hfl
        have hheads := heads_perm hp hl.heads
        have hne : n.key ≠ [] := hl.ne n (hp.mem_iff.2 (by simp))
        have below : ∀ w, listLk l.items (n.key ++ w) = if w = [] then n.data else listLk n.sub w :=
          listLk_below hl hp
        have notin : ¬ n.key <+: c :: cs → listLk l.items (c :: cs) = none := by
          intro hnp
          cases hlx : listLk l.items (c :: cs) with
          | none => rfl
          | some y => exact absurd (listLk_through hl hp (by rw [hh]; rfl) (by rw [hlx]; rfl)) hnp
        simp only
        cases hmk : matchKey n.key (c :: cs) with
        | keyEnds y =>
          simp only [hmk] at hm ⊢
          obtain ⟨⟨a, as, h1⟩, -⟩ := hm
          rw [notin (by
            rw [h1]; intro h
            have := h.length_le
            simp only [List.length_append, List.length_cons] at this
            omega)]
          simp
        | differ y =>
          simp only [hmk] at hm ⊢
          obtain ⟨p, a, as, b, bs, h1, h2, h3, -⟩ := hm
          rw [notin (by
            rw [h1, h2, List.prefix_append_right_inj]
            intro h
            exact h3 (List.cons_prefix_cons.1 h).1)]
          simp
        | both y =>
          simp only [hmk] at hm ⊢
          have hk0 := below []
          simp only [List.append_nil, if_true] at hk0
          rw [hm] at hk0
          cases hnt : n.tail with
          | true =>
            have hsubne : n.sub ≠ [] := by
              intro e
              have := tailed_iff t2 hs.1
              simp only [Node.subnodes, hnt, e] at this
              simp at this
            -- a longer key
            have longer : ∃ q, (listLk l.items q).isSome = true ∧ c :: cs <+: q ∧ q ≠ c :: cs := by
              cases hsub : n.sub with
              | nil => exact absurd hsub hsubne
              | cons m ms =>
                have hmm : m ∈ n.subnodes.items := by simp [Node.subnodes, hsub]
                have hmne := hs.1.ne m hmm
                refine ⟨n.key ++ m.key, ?_, ?_, ?_⟩
                · rw [below, if_neg hmne]
                  exact full_some hs.1 hfl.1.2 hmm
                · rw [hm]; exact List.prefix_append _ _
                · rw [hm]; simpa using hmne
            obtain ⟨q1, l1, l2, l3⟩ := longer
            have hts : (l.setAt pre.length (Node.mk n.key (some []) n.sub true)).tailSet = true := t1
            simp only [if_true, hts, Bool.not_true, Bool.and_false, Bool.false_eq_true, if_false]
            refine ⟨by simp, ?_, ?_⟩
            · constructor
              · rintro ⟨f, h⟩; cases h
              · rintro ⟨-, ⟨-, h⟩ | ⟨p, h1, h2, h3, h4⟩⟩
                · exact absurd (h q1 l1) l3
                · rcases h4 q1 l1 (h2.trans l2) with h | h
                  · rw [h] at l2; exact absurd (h2.eq_of_length_le l2.length_le) h1
                  · exact absurd h l3
            · intro s d h
              simp only [Except.ok.injEq, Option.some.injEq, Prod.mk.injEq] at h
              obtain ⟨rfl, -⟩ := h
              refine ⟨fun h => absurd (h q1 l1 l2) l3, fun q _ _ _ => ?_⟩
              have hps := hset (Node.mk n.key (some []) n.sub true)
              have hsh : Heads (Node.mk n.key (some []) n.sub true :: (pre ++ post)) :=
                heads_replace hheads hne (by simp)
              rw [listLk_perm hps (heads_perm hps.symm hsh), listLk_cons, key_mk,
                if_pos (by simp [hm]), nodeLk_eq]
              simp [hm]
          | false =>
            have hnosub : n.sub = [] := by
              have := tailed_iff t2 hs.1
              simp only [Node.subnodes, hnt] at this
              simpa using this
            have noLonger : ∀ q, (listLk l.items q).isSome = true → c :: cs <+: q → q = c :: cs := by
              intro q hq hpq
              rw [← hm] at hpq ⊢
              obtain ⟨w, rfl⟩ := hpq
              rw [below, hnosub] at hq
              split at hq
              · rename_i e; simp [e]
              · simp [listLk] at hq
            have hh2 := heads_cons.1 hheads
            have hsome : (listLk l.items (c :: cs)).isSome = true := by rw [hk0]; exact hfl.1.1
            simp only [Bool.false_eq_true, if_false]
            have hts : (l.removeAt pre.length).tailSet = !(pre ++ post).isEmpty := by
              simp only [HSList.removeAt, hitems, eraseIdx_mid]
              cases hr : pre ++ post <;> simp [t1]
            rw [hts]
            have noParent : ¬ ∃ p, p ≠ c :: cs ∧ p <+: c :: cs ∧ (listLk l.items p).isSome = true ∧
                ∀ q, (listLk l.items q).isSome = true → p <+: q → q = p ∨ q = c :: cs := by
              rintro ⟨p, h1, h2, h3, -⟩
              have hpne : p ≠ [] := by
                rintro rfl; rw [listLk_nil_key hl.heads.1] at h3; simp at h3
              have := listLk_through hl hp (by rw [hh, head_prefix hpne h2]; rfl) h3
              rw [hm] at this
              exact h1 (h2.eq_of_length_le this.length_le)
            refine ⟨?_, ?_, ?_⟩
            · intro f h
              split at h
              · cases h; rfl
              · cases h
            · constructor
              · rintro ⟨f, h⟩
                split at h
                · rename_i hc
                  simp only [Bool.not_not, Bool.and_eq_true, List.isEmpty_iff] at hc
                  refine ⟨hsome, .inl ⟨hc.1, ?_⟩⟩
                  intro q hq
                  by_cases hqh : n.key.head? = q.head?
                  · have := listLk_through hl hp hqh hq
                    rw [hm] at this
                    exact noLonger q hq this
                  · rw [listLk_perm hp hl.heads, listLk_cons, if_neg hqh, hc.2] at hq
                    simp [listLk] at hq
                · cases h
              · rintro ⟨-, ⟨h1, h2⟩ | h⟩
                · refine ⟨.useAfterFree, ?_⟩
                  rw [if_pos]
                  simp only [h1, Bool.not_not, Bool.true_and, List.isEmpty_iff]
                  cases hr : pre ++ post with
                  | nil => rfl
                  | cons m ms =>
                    exfalso
                    have hmi : m ∈ l.items := hp.mem_iff.2 (by simp [hr])
                    have := h2 m.key (full_some hl hd hmi)
                    have h3 := hh2.2.1 m (by simp [hr])
                    rw [this, hh] at h3
                    exact h3 rfl
                · exact absurd h noParent
            · intro s d h
              have h := Option.some.inj (ite_ok h)
              simp only [Prod.mk.injEq] at h
              obtain ⟨rfl, -⟩ := h
              refine ⟨fun _ => ?_, fun q h1 h2 h3 => absurd (noLonger q h1 h2) h3⟩
              have hps : (l.removeAt pre.length).items = pre ++ post := by
                simp only [HSList.removeAt, hitems, eraseIdx_mid]
              rw [hps, listLk_none]
              intro m hm' e
              exact hh2.2.1 m hm' (by rw [hh, e]; rfl)
        | nodeEnds y =>
          simp only [hmk] at hm ⊢
          obtain ⟨⟨a, as, h1⟩, rfl⟩ := hm
          rw [h1, List.drop_left]
          obtain ⟨i1, i2, i3⟩ := ih true (a :: as) n.subnodes hs.1 t2 hfl.1.2 (by
            have hlen := congrArg List.length h1
            have : 0 < n.key.length := List.length_pos_iff.2 hne
            simp only [List.length_append, List.length_cons] at hlen hf ⊢
            omega)
          have hnkey : (listLk l.items n.key).isSome = true := by
            have := below []
            simp only [List.append_nil, if_true] at this
            rw [this]; exact hfl.1.1
          have hsubs : n.subnodes.items = n.sub := rfl
          rw [hsubs] at i2 i3
          have hsnil : listLk n.sub [] = none := listLk_nil_key hs.1.heads.1
          have hiff : ((listLk l.items (n.key ++ a :: as)).isSome = true ∧
              Alone (listLk l.items) nested (n.key ++ a :: as)) ↔
              ((listLk n.sub (a :: as)).isSome = true ∧ Alone (listLk n.sub) true (a :: as)) := by
            rw [below, if_neg (by simp)]
            refine and_congr_right fun hsm => ?_
            constructor
            · rintro (⟨-, h⟩ | ⟨p, g1, g2, g3, g4⟩)
              · exact absurd (congrArg List.length (h n.key hnkey)) (by simp)
              · have hpne : p ≠ [] := by
                  rintro rfl; rw [listLk_nil_key hl.heads.1] at g3; simp at g3
                have hph := listLk_through hl hp (by
                  rw [head_prefix hpne g2, head_append hne]) g3
                obtain ⟨w, rfl⟩ := hph
                have g4' : ∀ q, (listLk n.sub q).isSome = true → w <+: q → q = w ∨ q = a :: as := by
                  intro q hq hwq
                  have hqne : q ≠ [] := by
                    rintro rfl; rw [hsnil] at hq; simp at hq
                  have := g4 (n.key ++ q) (by rw [below, if_neg hqne]; exact hq)
                    ((List.prefix_append_right_inj _).2 hwq)
                  simpa using this
                by_cases e : w = []
                · subst e
                  refine .inl ⟨rfl, fun q hq => ?_⟩
                  rcases g4' q hq List.nil_prefix with h | h
                  · subst h; rw [hsnil] at hq; simp at hq
                  · exact h
                · rw [below, if_neg e] at g3
                  exact .inr ⟨w, by simpa using g1, (List.prefix_append_right_inj _).1 g2, g3, g4'⟩
            · rintro (⟨-, h⟩ | ⟨w, g1, g2, g3, g4⟩)
              · refine .inr ⟨n.key, ?_, List.prefix_append _ _, hnkey, ?_⟩
                · intro e; exact absurd (congrArg List.length e) (by simp)
                · rintro q hq ⟨w, rfl⟩
                  rw [below] at hq
                  split at hq
                  · rename_i e; simp [e]
                  · simp [h w hq]
              · have hwne : w ≠ [] := by
                  rintro rfl; rw [hsnil] at g3; simp at g3
                refine .inr ⟨n.key ++ w, by simpa using g1, (List.prefix_append_right_inj _).2 g2, ?_, ?_⟩
                · rw [below, if_neg hwne]; exact g3
                · intro q hq hpq
                  obtain ⟨z, rfl⟩ : n.key <+: q := (List.prefix_append _ _).trans hpq
                  have hwz := (List.prefix_append_right_inj _).1 hpq
                  rw [below] at hq
                  split at hq
                  · rename_i e; subst e; exact absurd (List.prefix_nil.1 hwz) hwne
                  · have := g4 z hq hwz
                    simpa using this
          refine ⟨?_, ?_, ?_⟩
          · intro f h
            split at h
            · rename_i f' hx
              cases h
              exact i1 _ hx
            · cases h
            · cases h
          · rw [hiff, ← i2]
            constructor
            · rintro ⟨f, h⟩
              split at h
              · rename_i f' hx; exact ⟨f', hx⟩
              · cases h
              · cases h
            · rintro ⟨f, h⟩
              exact ⟨f, by rw [h]⟩
          · intro s d h
            split at h
            · cases h
            · cases h
            · rename_i s' d' hx
              simp only [Except.ok.injEq, Option.some.injEq, Prod.mk.injEq] at h
              obtain ⟨rfl, rfl⟩ := h
              obtain ⟨j1, j2⟩ := i3 _ _ hx
              have hps := hset (Node.ofList n.key n.data s')
              have hsh : Heads (Node.ofList n.key n.data s' :: (pre ++ post)) :=
                heads_replace hheads hne (by simp)
              have hlk : listLk (l.setAt pre.length (Node.ofList n.key n.data s')).items
                  (n.key ++ a :: as) = listLk s'.items (a :: as) := by
                rw [listLk_perm hps (heads_perm hps.symm hsh), listLk_cons, ofList_key,
                  if_pos (head_append hne).symm, nodeLk_eq]
                simp only [ofList_key, ofList_data, ofList_sub]
                rw [if_neg (by simp), if_pos (List.prefix_append _ _), List.drop_left]
              rw [hlk]
              constructor
              · intro h
                refine j1 fun q hq hpq => ?_
                have hqne : q ≠ [] := by
                  rintro rfl; exact absurd (List.prefix_nil.1 hpq) (by simp)
                have := h (n.key ++ q) (by rw [below, if_neg hqne]; exact hq)
                  ((List.prefix_append_right_inj _).2 hpq)
                simpa using this
              · intro q hq hpq hqn
                obtain ⟨z, rfl⟩ : n.key <+: q := (List.prefix_append _ _).trans hpq
                have hz := (List.prefix_append_right_inj _).1 hpq
                have hzne : z ≠ [] := by
                  rintro rfl; exact absurd (List.prefix_nil.1 hz) (by simp)
                rw [below, if_neg hzne] at hq
                exact j2 z hq hz (by simpa using hqn)

theorem unset_fault {t : MTree V} (h : Ok t) (k : Bytes) :
    (∀ f, unset t k = .error f → f = .useAfterFree) ∧
    ((∃ f, unset t k = .error f) ↔ OnlyChild (get t) k) ∧
    ∀ t', unset t k = .ok t' → Removed (get t) k (get t') := by
  have e : get t = listLk t.subnodes.items := funext fun _ => get_eq h.wf _
  obtain ⟨h1, h2, h3⟩ := unsetLoop_fault k.length false k t.subnodes h.wf h.tailed h.full (Nat.le_refl _)
  have herr : ∀ f, unset t k = .error f ↔ unsetLoop k.length false k t.subnodes = .error f := by
    intro f
    simp only [unset]
    split
    · rename_i f' hx; rw [hx]; simp
    · rename_i hx; rw [hx]; simp
    · rename_i hx; rw [hx]; simp
  refine ⟨fun f hf => h1 f ((herr f).1 hf), ?_, ?_⟩
  · rw [show (∃ f, unset t k = .error f) ↔ ∃ f, unsetLoop k.length false k t.subnodes = .error f from
      exists_congr herr, h2, e]
    simp only [OnlyChild, Alone, Bool.false_eq_true, false_and, false_or]
  · intro t' ht'
    obtain ⟨o1, o2, o3, -⟩ := unset_cases h k ht'
    have e' : get t' = listLk t'.subnodes.items := funext fun _ => get_eq o1.wf _
    simp only [unset] at ht'
    split at ht'
    · cases ht'
    · rename_i hx
      cases ht'
      have hn := unsetLoop_missing _ _ _ _ h.wf (Nat.le_refl _) hx
      rw [← e] at hn
      exact ⟨fun _ => hn, fun _ => hn, fun q hq _ _ _ => by rw [hn] at hq; simp at hq, o3⟩
    · rename_i s d hx
      cases ht'
      obtain ⟨j1, j2⟩ := h3 _ _ hx
      refine ⟨fun hn => ?_, ?_, ?_, o3⟩
      · have := unsetLoop_found _ _ _ _ _ _ h.wf h.tailed h.full hx
        rw [e] at hn
        simp_all
      · intro hq; rw [e'] ; rw [e] at hq; exact j1 hq
      · intro q hk hq; rw [e'] ; rw [e] at hq; exact j2 q hq

theorem get_create (k : Bytes) : get (create : MTree V) k = none := by
  rw [get_eq ok_create.wf]
  rfl

end Comps.MTree
