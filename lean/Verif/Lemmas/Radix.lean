import Verif.Spec.Radix
import Verif.Lemmas.RTreeReach

/-! # Lemmas about the plain dictionary -/

namespace Comps.Radix
open Comps.Spec Comps.Spec.Plain
open Comps.RTree (AllN perm_mid set_mid eraseIdx_mid findAt_some matchKey_spec alln_of_perm alln_empty
  TOK tok_of_perm tok_empty WF key_mk data_mk sub_mk subnodes_mk ofList_key ofList_data)
variable {V : Type}

theorem made_eq (c : Calls V) (v : Option V) : newData c v = made c v := rfl

theorem dropNode_eq (n : Node V) : dropNode n = n.data.toList ++ dropList n.sub := by
  cases n; simp [dropNode]

theorem dropList_eq (l : List (Node V)) : dropList l = l.flatMap dropNode := by
  induction l with
  | nil => simp [dropList]
  | cons n ns ih => simp [dropList, ih]

theorem dropList_perm {l r : List (Node V)} (h : l.Perm r) : (dropList l).Perm (dropList r) := by
  rw [dropList_eq, dropList_eq]; exact h.flatMap_right _

theorem dropList_cons (n : Node V) (l : List (Node V)) :
    dropList (n :: l) = dropNode n ++ dropList l := by simp [dropList]

@[simp] theorem dropList_nil : dropList ([] : List (Node V)) = [] := by simp [dropList]

theorem dropList_append (l r : List (Node V)) :
    dropList (l ++ r) = dropList l ++ dropList r := by simp [dropList_eq]

@[simp] theorem freed_nil : freed ([] : List (Option V)) = [] := rfl
@[simp] theorem freed_append (a b : List (Option V)) : freed (a ++ b) = freed a ++ freed b := by
  simp [freed]
@[simp] theorem freed_one (d : Option V) : freed [d] = d.toList := by cases d <;> rfl
@[simp] theorem freed_some (l : List V) : freed (l.map some) = l := by
  simp [freed, List.filterMap_map, Function.comp_def]

/-- The four shapes of one step of `set`; `l` is the list before, `l'` after, `d` the calls of the
destructor. -/
inductive Step (c : Calls V) (lt : UInt8 → UInt8 → Bool) (v : Option V) (rest : Bytes) (fuel : Nat)
    (b : UInt8) (bs : Bytes) (l l' : HSList (Node V)) (d : List (Option V)) : Prop
  | fresh : l'.items.Perm (Node.leaf (b :: bs ++ rest) v :: l.items) → d = [] →
      l'.tailSet = l.tailSet →
      Step c lt v rest fuel b bs l l' d
  | both (n : Node V) (r : List (Node V)) : n.key = b :: bs → l.items.Perm (n :: r) →
      l'.items.Perm (Node.mk n.key v n.sub n.tail :: r) → d = [n.data] → l'.tailSet = l.tailSet →
      Step c lt v rest fuel b bs l l' d
  | prefixed (n : Node V) (r : List (Node V)) (a : UInt8) (as : Bytes) :
      n.key = (b :: bs) ++ a :: as → l.items.Perm (n :: r) →
      (l'.items.Perm (Node.mk (b :: bs) v [Node.mk (a :: as) n.data n.sub n.tail] true ::
        (if l.tailSet then r else []))) → d = [] → l'.tailSet = true →
      Step c lt v rest fuel b bs l l' d
  | deeper (n : Node V) (r : List (Node V)) (a : UInt8) (as : Bytes) (s : HSList (Node V)) :
      b :: bs = n.key ++ a :: as → n.key ≠ [] → l.items.Perm (n :: r) →
      setLoop c lt v rest fuel (a :: as) n.subnodes = .ok (s, d) →
      l'.items.Perm (Node.ofList n.key n.data s :: r) → l'.tailSet = l.tailSet →
      Step c lt v rest fuel b bs l l' d
  | split (n : Node V) (r : List (Node V)) (p : Bytes) (a b' : UInt8) (as bs' : Bytes)
      (subs : HSList (Node V)) :
      n.key = b :: p ++ a :: as → b :: bs = b :: p ++ b' :: bs' → a ≠ b' → l.items.Perm (n :: r) →
      subs.items.Perm [Node.mk (a :: as) n.data n.sub n.tail, Node.leaf (b' :: bs' ++ rest) v] →
      l'.items.Perm (Node.ofList (b :: p) none subs :: r) → d = [] → subs.tailSet = true →
      l'.tailSet = l.tailSet →
      Step c lt v rest fuel b bs l l' d

theorem set_step (c : Calls V) (lt : UInt8 → UInt8 → Bool) (v : Option V) (rest : Bytes) (fuel : Nat)
    (b : UInt8) (bs : Bytes) (l l' : HSList (Node V)) (d : List (Option V))
    (h : setLoop c lt v rest (fuel + 1) (b :: bs) l = .ok (l', d)) :
    Step c lt v rest fuel b bs l l' d := by
  simp only [setLoop] at h
  cases hfd : RTree.findAt b l.items with
  | none =>
    simp only [hfd] at h
    cases hls : RTree.lesserAt lt b l.items with
    | none => simp only [hls] at h; cases h; exact .fresh (List.Perm.refl _) rfl rfl
    | some i =>
      simp only [hls] at h; cases h
      refine .fresh ?_ rfl rfl
      simp only [HSList.insertAfter]
      refine (perm_mid _ _ _).trans ?_
      simp
  | some r =>
    obtain ⟨i, n⟩ := r
    obtain ⟨pre, post, hitems, hi, hh⟩ := findAt_some hfd
    subst hi
    have hm := matchKey_spec bs hh
    have hne : n.key ≠ [] := by intro e; rw [e] at hh; cases hh
    have hp : l.items.Perm (n :: (pre ++ post)) := hitems ▸ perm_mid pre post n
    have hset : ∀ n', (l.setAt pre.length n').items.Perm (n' :: (pre ++ post)) := by
      intro n'
      simp only [HSList.setAt, hitems, set_mid]
      exact perm_mid _ _ _
    simp only [hfd] at h
    cases hmk : RTree.matchKey n.key (b :: bs) with
    | both y =>
      simp only [hmk, destroyData, bind, Except.bind] at hm h
      split at h
      · cases h
      · rename_i x hx
        split at hx
        · cases hx; cases h
          exact .both n _ hm hp (hset _) rfl rfl
        · cases hx
    | keyEnds y =>
      simp only [hmk] at hm h
      obtain ⟨⟨a, as, h1⟩, rfl⟩ := hm
      cases h
      refine .prefixed n (pre ++ post) a as h1 hp ?_ rfl ?_
      rotate_left
      · simp only [HSList.append]; split <;> rfl
      have hd : n.key.drop (b :: bs).length = a :: as := by rw [h1]; simp
      rw [hd]
      simp only [HSList.append, HSList.removeAt, hitems, eraseIdx_mid]
      cases ht : l.tailSet with
      | false => simp
      | true =>
        cases hr : pre ++ post with
        | nil => simp
        | cons m ms => exact List.perm_append_singleton _ (m :: ms)
    | nodeEnds y =>
      simp only [hmk, bind, Except.bind] at hm h
      obtain ⟨⟨a, as, h1⟩, rfl⟩ := hm
      have hd : (b :: bs).drop n.key.length = a :: as := by rw [h1]; simp
      rw [hd] at h
      split at h
      · cases h
      · rename_i x hx
        cases h
        exact .deeper n (pre ++ post) a as x.1 h1 hne hp hx (hset _) rfl
    | differ y =>
      simp only [hmk] at hm h
      obtain ⟨p, a, as, b', bs', h1, h2, h3, rfl⟩ := hm
      have hd1 : (b :: bs).drop (b :: p).length = b' :: bs' := by rw [h2]; simp
      have hd2 : n.key.drop (b :: p).length = a :: as := by rw [h1]; simp
      have hd3 : n.key.take (b :: p).length = b :: p := by rw [h1]; simp
      rw [hd1, hd2, hd3] at h
      cases h
      refine .split n (pre ++ post) p a b' as bs' _ h1 h2 h3 hp ?_ (hset _) rfl ?_ rfl
      · split
        · simp [HSList.append, HSList.empty]
        · simp [HSList.append, HSList.empty]; exact List.Perm.swap _ _ _
      · split <;> simp [HSList.append, HSList.empty]

/-- What one write does with pointers: all are freed, held or lost, and none is lost when no node is
split by a proper prefix. -/
theorem setLoop_owns (c : Calls V) (lt : UInt8 → UInt8 → Bool) (v : Option V) (rest : Bytes)
    (fuel : Nat) (k pre : Bytes) (l l' : HSList (Node V)) (d : List (Option V))
    (h : setLoop c lt v rest fuel k l = .ok (l', d)) :
    ∃ lost, (freed d ++ dropList l'.items ++ lost).Perm (v.toList ++ dropList l.items) ∧
      (k ≠ [] → k.length ≤ fuel → ∀ P : Bytes → Prop, TOK P pre l →
        (∀ k', ProperPrefix (pre ++ k) k' → ¬ P k') → lost = []) := by
  induction fuel generalizing k pre l l' d with
  | zero =>
    simp only [setLoop] at h; cases h
    exact ⟨v.toList, by simpa using List.perm_append_comm, by
      intro h1 h2; simp at h2; exact (h1 h2).elim⟩
  | succ fuel ih =>
    cases k with
    | nil =>
      simp only [setLoop] at h; cases h
      exact ⟨v.toList, by simpa using List.perm_append_comm, by simp⟩
    | cons b bs =>
      cases set_step c lt v rest fuel b bs l l' d h with
      | fresh h1 h2 ht =>
        subst h2
        refine ⟨[], ?_, fun _ _ _ _ _ => rfl⟩
        simp only [freed_nil, List.nil_append, List.append_nil]
        refine (dropList_perm h1).trans ?_
        rw [dropList_cons, dropNode_eq]
        simp [Node.leaf]
      | both n r h1 h2 h3 h4 ht =>
        subst h4
        refine ⟨[], ?_, fun _ _ _ _ _ => rfl⟩
        simp only [freed_one, List.append_nil]
        refine ((dropList_perm h3).append_left _).trans ?_
        refine List.Perm.trans ?_ ((dropList_perm h2).append_left _).symm
        simp only [dropList_cons, dropNode_eq, data_mk, sub_mk, List.append_assoc]
        rw [← List.append_assoc, ← List.append_assoc v.toList]
        exact List.perm_append_comm.append_right _
      | prefixed n r a as h1 h2 h3 h4 ht =>
        subst h4
        refine ⟨if l.tailSet then [] else dropList r, ?_, ?_⟩
        · simp only [freed_nil, List.nil_append]
          refine ((dropList_perm h3).append_right _).trans ?_
          refine List.Perm.trans ?_ ((dropList_perm h2).append_left _).symm
          simp only [dropList_cons, dropNode_eq, data_mk, sub_mk, List.append_assoc, dropList_nil,
            List.nil_append]
          cases l.tailSet <;> simp
        · intro _ _ P hq hP
          cases hlt : l.tailSet with
          | true => simp
          | false =>
            have := hq.top hlt n (h2.mem_iff.2 (by simp))
            exact (hP _ ⟨a, as, by rw [h1]; simp⟩ this).elim
      | deeper n r a as s h1 h2 h3 h4 h5 ht =>
        obtain ⟨lost, i1, i2⟩ := ih (a :: as) (pre ++ n.key) n.subnodes s d h4
        refine ⟨lost, ?_, ?_⟩
        · have e : (dropList l'.items).Perm (n.data.toList ++ dropList s.items ++ dropList r) := by
            refine (dropList_perm h5).trans ?_
            rw [dropList_cons, dropNode_eq]; simp [Node.ofList]
          have e2 : (dropList l.items).Perm (n.data.toList ++ dropList n.subnodes.items ++ dropList r) := by
            refine (dropList_perm h3).trans ?_
            rw [dropList_cons, dropNode_eq]; simp [Node.subnodes]
          refine ((e.append_left _).append_right _).trans ?_
          refine List.Perm.trans ?_ (e2.append_left _).symm
          -- n.data and r on both sides
          have p1 : (freed d ++ (n.data.toList ++ dropList s.items ++ dropList r) ++ lost).Perm
              ((n.data.toList ++ dropList r) ++ (freed d ++ dropList s.items ++ lost)) := by
            classical
            rw [List.perm_iff_count]
            intro x
            simp only [List.count_append]
            omega
          have p2 : (v.toList ++ (n.data.toList ++ dropList n.subnodes.items ++ dropList r)).Perm
              ((n.data.toList ++ dropList r) ++ (v.toList ++ dropList n.subnodes.items)) := by
            classical
            rw [List.perm_iff_count]
            intro x
            simp only [List.count_append]
            omega
          exact p1.trans ((i1.append_left _).trans p2.symm)
        · intro _ hf P hq hP
          refine i2 (by simp) ?_ P (hq.sub n (h3.mem_iff.2 (by simp))) ?_
          · have := congrArg List.length h1
            have : 0 < n.key.length := List.length_pos_iff.2 h2
            simp at *; omega
          · rw [List.append_assoc, ← h1]
            exact hP
      | split n r p a b' as bs' subs h1 h2 h3 h4 h5 h6 h7 hst ht =>
        subst h7
        refine ⟨[], ?_, fun _ _ _ _ _ => rfl⟩
        simp only [freed_nil, List.nil_append, List.append_nil]
        have e : (dropList l'.items).Perm (dropList subs.items ++ dropList r) := by
          refine (dropList_perm h6).trans ?_
          rw [dropList_cons, dropNode_eq]; simp [Node.ofList]
        have e1 : (dropList subs.items).Perm (dropNode n ++ v.toList) := by
          refine (dropList_perm h5).trans ?_
          simp only [dropList_cons, dropNode_eq, Node.leaf, data_mk, sub_mk, dropList_nil,
            List.append_nil]
          exact List.Perm.refl _
        refine e.trans ((e1.append_right _).trans ?_)
        refine List.Perm.trans ?_ ((dropList_perm h4).append_left _).symm
        rw [dropList_cons, ← List.append_assoc]
        exact List.perm_append_comm.append_right _

/-- `set` keeps the tail invariant. -/
theorem setLoop_tok (c : Calls V) (lt : UInt8 → UInt8 → Bool) (v : Option V) (rest : Bytes)
    (P : Bytes → Prop) (fuel : Nat) (k pre : Bytes) (l l' : HSList (Node V)) (d : List (Option V))
    (h : setLoop c lt v rest fuel k l = .ok (l', d)) (ht : TOK P pre l)
    (hP : ∀ p, p <+: k ++ rest → P (pre ++ p)) : TOK P pre l' := by
  induction fuel generalizing k pre l l' d with
  | zero => simp only [setLoop] at h; cases h; exact ht
  | succ fuel ih =>
    cases k with
    | nil => simp only [setLoop] at h; cases h; exact ht
    | cons b bs =>
      cases set_step c lt v rest fuel b bs l l' d h with
      | fresh h1 h2 h3 =>
        refine tok_of_perm h1 ?_ ?_
        · intro hf
          rw [h3] at hf
          simp only [List.mem_cons, forall_eq_or_imp]
          exact ⟨hP _ (List.prefix_refl _), ht.top hf⟩
        · simp only [List.mem_cons, forall_eq_or_imp]
          exact ⟨tok_empty _ _, ht.sub⟩
      | both n r h1 h2 h3 _ h4 =>
        refine tok_of_perm h3 ?_ ?_
        · intro hf
          rw [h4] at hf
          have := ht.top hf
          simp only [List.mem_cons, forall_eq_or_imp]
          exact ⟨this n (h2.mem_iff.2 (by simp)), fun m hm => this m (h2.mem_iff.2 (by simp [hm]))⟩
        · simp only [List.mem_cons, forall_eq_or_imp]
          exact ⟨ht.sub n (h2.mem_iff.2 (by simp)),
            fun m hm => ht.sub m (h2.mem_iff.2 (by simp [hm]))⟩
      | prefixed n r a as h1 h2 h3 _ h4 =>
        refine tok_of_perm h3 (by simp [h4]) ?_
        simp only [List.mem_cons, forall_eq_or_imp]
        refine ⟨?_, ?_⟩
        · refine .mk _ _ (by simp) ?_
          simp only [subnodes_mk, List.mem_singleton, forall_eq, key_mk, List.append_assoc]
          rw [← h1]
          exact ht.sub n (h2.mem_iff.2 (by simp))
        · intro m hm
          cases hlt : l.tailSet with
          | false => simp [hlt] at hm
          | true => simp [hlt] at hm; exact ht.sub m (h2.mem_iff.2 (by simp [hm]))
      | deeper n r a as s h1 h2 h3 h4 h5 h6 =>
        refine tok_of_perm h5 ?_ ?_
        · intro hf
          rw [h6] at hf
          have := ht.top hf
          simp only [List.mem_cons, forall_eq_or_imp]
          exact ⟨this n (h3.mem_iff.2 (by simp)), fun m hm => this m (h3.mem_iff.2 (by simp [hm]))⟩
        · simp only [List.mem_cons, forall_eq_or_imp]
          refine ⟨?_, fun m hm => ht.sub m (h3.mem_iff.2 (by simp [hm]))⟩
          refine ih (a :: as) (pre ++ n.key) n.subnodes s d h4 (ht.sub n (h3.mem_iff.2 (by simp))) ?_
          intro p hp
          rw [List.append_assoc]
          exact hP _ (by rw [h1, List.append_assoc]; exact (List.prefix_append_right_inj _).2 hp)
      | split n r p a b' as bs' subs h1 h2 h3 h4 h5 h6 h7 hst h8 =>
        refine tok_of_perm h6 ?_ ?_
        · intro hf
          rw [h8] at hf
          have := ht.top hf
          simp only [List.mem_cons, forall_eq_or_imp]
          exact ⟨hP _ (by rw [h2, List.append_assoc]; exact List.prefix_append _ _),
            fun m hm => this m (h4.mem_iff.2 (by simp [hm]))⟩
        · simp only [List.mem_cons, forall_eq_or_imp]
          refine ⟨?_, fun m hm => ht.sub m (h4.mem_iff.2 (by simp [hm]))⟩
          refine tok_of_perm h5 (by simp [Node.subnodes, Node.ofList, Node.tail, hst]) ?_
          simp only [List.mem_cons, forall_eq_or_imp, ofList_key, key_mk, subnodes_mk, RTree.leaf_key,
            RTree.leaf_subnodes, List.not_mem_nil, false_implies, implies_true, and_true]
          refine ⟨?_, tok_empty _ _⟩
          have := ht.sub n (h4.mem_iff.2 (by simp))
          rw [h1] at this
          have h9 : (pre ++ b :: p) ++ a :: as = pre ++ (b :: p ++ a :: as) := by simp
          rw [h9]
          exact this

/-- Paths in the tree stay prefixes of what was given. -/
theorem setLoop_below (c : Calls V) (lt : UInt8 → UInt8 → Bool) (v : Option V) (rest : Bytes)
    (Q : Bytes → Prop) (hQ : ∀ p q, p <+: q → Q q → Q p)
    (fuel : Nat) (k pre : Bytes) (l l' : HSList (Node V)) (d : List (Option V))
    (h : setLoop c lt v rest fuel k l = .ok (l', d)) (hl : AllN (fun p _ => Q p) pre l)
    (hk : Q (pre ++ k ++ rest)) : AllN (fun p _ => Q p) pre l' := by
  induction fuel generalizing k pre l l' d with
  | zero => simp only [setLoop] at h; cases h; exact hl
  | succ fuel ih =>
    cases k with
    | nil => simp only [setLoop] at h; cases h; exact hl
    | cons b bs =>
      have leaf_ok : ∀ p : Bytes, ∀ w : Option V, AllN (fun p _ => Q p) p (Node.leaf [] w).subnodes :=
        fun p w => alln_empty _ _
      cases set_step c lt v rest fuel b bs l l' d h with
      | fresh h1 h2 ht =>
        refine alln_of_perm h1 ?_ ?_
        · simp only [List.mem_cons, forall_eq_or_imp, Node.leaf, key_mk]
          exact ⟨by rw [← List.append_assoc]; exact hk, hl.top⟩
        · simp only [List.mem_cons, forall_eq_or_imp]
          exact ⟨alln_empty _ _, hl.sub⟩
      | both n r h1 h2 h3 h4 ht =>
        refine alln_of_perm h3 ?_ ?_
        · simp only [List.mem_cons, forall_eq_or_imp, key_mk]
          exact ⟨hl.top n (h2.mem_iff.2 (by simp)), fun m hm => hl.top m (h2.mem_iff.2 (by simp [hm]))⟩
        · simp only [List.mem_cons, forall_eq_or_imp]
          exact ⟨hl.sub n (h2.mem_iff.2 (by simp)), fun m hm => hl.sub m (h2.mem_iff.2 (by simp [hm]))⟩
      | prefixed n r a as h1 h2 h3 h4 ht =>
        have hn : n ∈ l.items := h2.mem_iff.2 (by simp)
        have e : pre ++ n.key = pre ++ b :: bs ++ a :: as := by rw [h1]; simp
        have hmr : ∀ m ∈ (if l.tailSet then r else []), m ∈ l.items := by
          intro m hm
          cases hlt : l.tailSet with
          | false => simp [hlt] at hm
          | true => simp [hlt] at hm; exact h2.mem_iff.2 (by simp [hm])
        refine alln_of_perm h3 ?_ ?_
        · simp only [List.mem_cons, forall_eq_or_imp, key_mk]
          refine ⟨hQ _ _ ⟨a :: as, e.symm⟩ (hl.top n hn), fun m hm => hl.top m (hmr m hm)⟩
        · simp only [List.mem_cons, forall_eq_or_imp]
          refine ⟨?_, fun m hm => hl.sub m (hmr m hm)⟩
          refine .mk _ _ ?_ ?_
          · simp only [subnodes_mk, List.mem_singleton, forall_eq, key_mk]
            rw [← e]; exact hl.top n hn
          · simp only [subnodes_mk, List.mem_singleton, forall_eq, key_mk]
            rw [← e]; exact hl.sub n hn
      | deeper n r a as s h1 h2 h3 h4 h5 ht =>
        have hn : n ∈ l.items := h3.mem_iff.2 (by simp)
        have := ih (a :: as) (pre ++ n.key) n.subnodes s d h4 (hl.sub n hn) (by
          rw [h1] at hk; simpa using hk)
        refine alln_of_perm h5 ?_ ?_
        · simp only [List.mem_cons, forall_eq_or_imp, ofList_key]
          exact ⟨hl.top n hn, fun m hm => hl.top m (h3.mem_iff.2 (by simp [hm]))⟩
        · simp only [List.mem_cons, forall_eq_or_imp, ofList_key]
          exact ⟨this, fun m hm => hl.sub m (h3.mem_iff.2 (by simp [hm]))⟩
      | split n r p a b' as bs' subs h1 h2 h3 h4 h5 h6 h7 hst ht =>
        have hn : n ∈ l.items := h4.mem_iff.2 (by simp)
        have e : pre ++ n.key = pre ++ b :: p ++ a :: as := by rw [h1]; simp
        have e2 : pre ++ b :: bs ++ rest = pre ++ b :: p ++ (b' :: bs' ++ rest) := by rw [h2]; simp
        refine alln_of_perm h6 ?_ ?_
        · simp only [List.mem_cons, forall_eq_or_imp, ofList_key]
          exact ⟨hQ _ _ ⟨a :: as, e.symm⟩ (hl.top n hn),
            fun m hm => hl.top m (h4.mem_iff.2 (by simp [hm]))⟩
        · simp only [List.mem_cons, forall_eq_or_imp, ofList_key]
          refine ⟨?_, fun m hm => hl.sub m (h4.mem_iff.2 (by simp [hm]))⟩
          refine alln_of_perm (l := (Node.ofList (b :: p) none subs).subnodes) h5 ?_ ?_
          · simp only [List.mem_cons, List.not_mem_nil, or_false, forall_eq_or_imp, forall_eq, key_mk,
              Node.leaf]
            exact ⟨by rw [← e]; exact hl.top n hn, by rw [← e2]; exact hk⟩
          · simp only [List.mem_cons, List.not_mem_nil, or_false, forall_eq_or_imp, forall_eq, key_mk,
              Node.leaf]
            exact ⟨by rw [← e]; exact hl.sub n hn, alln_empty _ _⟩

/-- What a removal does with pointers, and paths. -/
theorem unsetLoop_owns (c : Calls V) (fuel : Nat) (nested : Bool) (k pre : Bytes)
    (l l' : HSList (Node V)) (d : List (Option V))
    (h : unsetLoop c fuel nested k l = .ok (some (l', d))) :
    (∃ lost, (freed d ++ dropList l'.items ++ lost).Perm (dropList l.items) ∧
      (c.dtor = true → lost = [])) ∧
    (∀ Q : Bytes → Prop, AllN (fun p _ => Q p) pre l → AllN (fun p _ => Q p) pre l') := by
  induction fuel generalizing nested k pre l l' d with
  | zero => simp [unsetLoop] at h
  | succ fuel ih =>
    cases k with
    | nil => simp [unsetLoop] at h
    | cons b bs =>
      simp only [unsetLoop] at h
      cases hfd : RTree.findAt b l.items with
      | none => simp [hfd] at h
      | some r =>
        obtain ⟨i, n⟩ := r
        obtain ⟨pr, post, hitems, hi, hh⟩ := findAt_some hfd
        subst hi
        have hp : l.items.Perm (n :: (pr ++ post)) := hitems ▸ perm_mid pr post n
        have hset : ∀ n', (l.setAt pr.length n').items.Perm (n' :: (pr ++ post)) := by
          intro n'
          simp only [HSList.setAt, hitems, set_mid]
          exact perm_mid _ _ _
        have hnl : n ∈ l.items := by rw [hitems]; simp
        have hrl : ∀ m ∈ pr ++ post, m ∈ l.items := fun m hm => hp.mem_iff.2 (by simp [hm])
        simp only [hfd] at h
        cases hmk : RTree.matchKey n.key (b :: bs) with
        | both y =>
          simp only [hmk] at h
          cases hnt : n.tail with
          | true =>
            simp only [hnt, if_true, destroyData] at h
            cases hc : c.dtor with
            | false => simp [hc, bind, Except.bind] at h
            | true =>
              simp only [hc, if_true, bind, Except.bind] at h
              split at h
              · cases h
              cases h
              refine ⟨⟨[], ?_, fun _ => rfl⟩, ?_⟩
              · simp only [freed_one, List.append_nil]
                refine ((dropList_perm (hset _)).append_left _).trans ?_
                refine List.Perm.trans ?_ (dropList_perm hp).symm
                simp [dropList_cons, dropNode_eq]
              · intro Q hq
                refine alln_of_perm (hset _) ?_ ?_
                · simp only [List.mem_cons, forall_eq_or_imp, key_mk]
                  exact ⟨hq.top n hnl, fun m hm => hq.top m (hrl m hm)⟩
                · simp only [List.mem_cons, forall_eq_or_imp, key_mk, subnodes_mk]
                  refine ⟨?_, fun m hm => hq.sub m (hrl m hm)⟩
                  have := hq.sub n hnl
                  rw [← hnt]; exact this
          | false =>
            simp only [hnt, Bool.false_eq_true, if_false, bind, Except.bind] at h
            split at h
            · cases h
            cases h
            have hps : (l.removeAt pr.length).items = pr ++ post := by
              simp only [HSList.removeAt, hitems, eraseIdx_mid]
            refine ⟨?_, ?_⟩
            · simp only [dropped]
              cases hc : c.dtor with
              | true =>
                refine ⟨[], ?_, fun _ => rfl⟩
                simp only [if_true, freed_some, List.append_nil, hps]
                rw [← dropList_cons]
                exact (dropList_perm hp).symm
              | false =>
                refine ⟨dropNode n, ?_, by simp⟩
                simp only [Bool.false_eq_true, if_false, freed_nil, List.nil_append, hps]
                refine List.Perm.trans List.perm_append_comm ?_
                rw [← dropList_cons]
                exact (dropList_perm hp).symm
            · intro Q hq
              refine alln_of_perm (by rw [hps]) ?_ ?_
              · exact fun m hm => hq.top m (hrl m hm)
              · exact fun m hm => hq.sub m (hrl m hm)
        | keyEnds y => simp [hmk] at h
        | differ y => simp [hmk] at h
        | nodeEnds y =>
          simp only [hmk, bind, Except.bind] at h
          split at h
          · cases h
          rename_i x hx
          split at h
          · cases h
          rename_i x s
          cases h
          obtain ⟨⟨lost, i1, i2⟩, i3⟩ := ih true _ (pre ++ n.key) n.subnodes s.1 s.2 hx
          refine ⟨⟨lost, ?_, i2⟩, ?_⟩
          · have e : (dropList (l.setAt pr.length (Node.ofList n.key n.data s.1)).items).Perm
                (n.data.toList ++ dropList s.1.items ++ dropList (pr ++ post)) := by
              refine (dropList_perm (hset _)).trans ?_
              rw [dropList_cons, dropNode_eq]; simp [Node.ofList]
            have e2 : (dropList l.items).Perm
                (n.data.toList ++ dropList n.subnodes.items ++ dropList (pr ++ post)) := by
              refine (dropList_perm hp).trans ?_
              rw [dropList_cons, dropNode_eq]; simp [Node.subnodes]
            refine ((e.append_left _).append_right _).trans ?_
            refine List.Perm.trans ?_ e2.symm
            have p1 : (freed s.2 ++ (n.data.toList ++ dropList s.1.items ++ dropList (pr ++ post)) ++
                lost).Perm ((n.data.toList ++ dropList (pr ++ post)) ++
                (freed s.2 ++ dropList s.1.items ++ lost)) := by
              classical
              rw [List.perm_iff_count]
              intro x
              simp only [List.count_append]
              omega
            have p2 : (n.data.toList ++ dropList n.subnodes.items ++ dropList (pr ++ post)).Perm
                ((n.data.toList ++ dropList (pr ++ post)) ++ dropList n.subnodes.items) := by
              classical
              rw [List.perm_iff_count]
              intro x
              simp only [List.count_append]
              omega
            exact p1.trans ((i1.append_left _).trans p2.symm)
          · intro Q hq
            refine alln_of_perm (hset _) ?_ ?_
            · simp only [List.mem_cons, forall_eq_or_imp, ofList_key]
              exact ⟨hq.top n hnl, fun m hm => hq.top m (hrl m hm)⟩
            · simp only [List.mem_cons, forall_eq_or_imp, ofList_key]
              exact ⟨i3 Q (hq.sub n hnl), fun m hm => hq.sub m (hrl m hm)⟩

/-- `unset` keeps the tail invariant. -/
theorem unsetLoop_tok (c : Calls V) (P : Bytes → Prop) (fuel : Nat) (nested : Bool) (k pre : Bytes)
    (l l' : HSList (Node V)) (d : List (Option V))
    (h : unsetLoop c fuel nested k l = .ok (some (l', d))) (ht : TOK P pre l) : TOK P pre l' := by
  induction fuel generalizing nested k pre l l' d with
  | zero => simp [unsetLoop] at h
  | succ fuel ih =>
    cases k with
    | nil => simp [unsetLoop] at h
    | cons b bs =>
      simp only [unsetLoop] at h
      cases hfd : RTree.findAt b l.items with
      | none => simp [hfd] at h
      | some r =>
        obtain ⟨i, n⟩ := r
        obtain ⟨pr, post, hitems, hi, hh⟩ := findAt_some hfd
        subst hi
        have hp : l.items.Perm (n :: (pr ++ post)) := hitems ▸ perm_mid pr post n
        have hset : ∀ n', (l.setAt pr.length n').items.Perm (n' :: (pr ++ post)) := by
          intro n'
          simp only [HSList.setAt, hitems, set_mid]
          exact perm_mid _ _ _
        have hnl : n ∈ l.items := by rw [hitems]; simp
        have hrl : ∀ m ∈ pr ++ post, m ∈ l.items := fun m hm => hp.mem_iff.2 (by simp [hm])
        simp only [hfd] at h
        cases hmk : RTree.matchKey n.key (b :: bs) with
        | both y =>
          simp only [hmk] at h
          cases hnt : n.tail with
          | true =>
            simp only [hnt, if_true, destroyData] at h
            cases hc : c.dtor with
            | false => simp [hc, bind, Except.bind] at h
            | true =>
              simp only [hc, if_true, bind, Except.bind] at h
              split at h
              · cases h
              cases h
              refine tok_of_perm (hset _) ?_ ?_
              · intro hf
                simp only [List.mem_cons, forall_eq_or_imp, key_mk]
                exact ⟨ht.top hf n hnl, fun m hm => ht.top hf m (hrl m hm)⟩
              · simp only [List.mem_cons, forall_eq_or_imp, key_mk, subnodes_mk]
                refine ⟨?_, fun m hm => ht.sub m (hrl m hm)⟩
                have := ht.sub n hnl
                rw [← hnt]; exact this
          | false =>
            simp only [hnt, Bool.false_eq_true, if_false, bind, Except.bind] at h
            split at h
            · cases h
            cases h
            have hps : (l.removeAt pr.length).items = pr ++ post := by
              simp only [HSList.removeAt, hitems, eraseIdx_mid]
            have htl : (l.removeAt pr.length).tailSet = (l.tailSet && !(pr ++ post).isEmpty) := by
              simp only [HSList.removeAt, hitems, eraseIdx_mid]
            refine tok_of_perm (by rw [hps]) ?_ fun m hm => ht.sub m (hrl m hm)
            intro hf m hm
            rw [htl] at hf
            cases hlt : l.tailSet with
            | false => exact ht.top hlt m (hrl m hm)
            | true =>
              rw [hlt] at hf
              simp at hf
              rw [hf.1, hf.2] at hm
              simp at hm
        | keyEnds y => simp [hmk] at h
        | differ y => simp [hmk] at h
        | nodeEnds y =>
          simp only [hmk, bind, Except.bind] at h
          split at h
          · cases h
          rename_i x hx
          split at h
          · cases h
          rename_i x s
          cases h
          refine tok_of_perm (hset _) ?_ ?_
          · intro hf
            simp only [List.mem_cons, forall_eq_or_imp, ofList_key]
            exact ⟨ht.top hf n hnl, fun m hm => ht.top hf m (hrl m hm)⟩
          · simp only [List.mem_cons, forall_eq_or_imp, ofList_key]
            exact ⟨ih true _ (pre ++ n.key) n.subnodes s.1 s.2 hx (ht.sub n hnl),
              fun m hm => ht.sub m (hrl m hm)⟩

/-! ## Histories -/

/-- The pointers a dictionary holds. -/
def held : Store V → List V
  | .live l => dropList l.items
  | .dangling => []

/-- The tail invariant of a dictionary. -/
def TOKS (P : Bytes → Prop) : Store V → Prop
  | .live l => TOK P [] l
  | .dangling => True

/-- The invariant on paths of a dictionary. -/
def AllS (Q : Bytes → Prop) : Store V → Prop
  | .live l => AllN (fun p _ => Q p) [] l
  | .dangling => True

theorem setN_inv {c : Calls V} {lt : UInt8 → UInt8 → Bool} {s s' : Store V} {k : Bytes} {n : Nat}
    {v : Option V} {d : List (Option V)} (h : setN c lt s k n v = .ok (s', d)) :
    ∃ l l', s = .live l ∧ s' = .live l' ∧ n ≤ k.length ∧
      setLoop c lt (newData c v) (k.drop n) n (k.take n) l = .ok (l', d) := by
  cases s with
  | dangling => simp [setN, Store.list, bind, Except.bind] at h
  | live l =>
    simp only [setN, Store.list, bind, Except.bind] at h
    split at h
    · cases h
    rename_i hn
    split at h
    · cases h
    rename_i x hx
    cases h
    exact ⟨l, x.1, rfl, rfl, by omega, hx⟩

theorem setN_owns {c : Calls V} {lt : UInt8 → UInt8 → Bool} {s s' : Store V} {k : Bytes} {n : Nat}
    {v : Option V} {d : List (Option V)} (h : setN c lt s k n v = .ok (s', d)) :
    (∃ lost, (freed d ++ held s' ++ lost).Perm (held s ++ (made c v).toList) ∧
      (k.take n ≠ [] → ∀ P, TOKS P s → (∀ k', ProperPrefix (k.take n) k' → ¬ P k') → lost = [])) ∧
    (∀ P, TOKS P s → (∀ p, p <+: k → P p) → TOKS P s') ∧
    (∀ Q : Bytes → Prop, (∀ p q, p <+: q → Q q → Q p) → AllS Q s → Q k → AllS Q s') := by
  obtain ⟨l, l', rfl, rfl, hn, hl⟩ := setN_inv h
  refine ⟨?_, ?_, ?_⟩
  · obtain ⟨lost, h1, h2⟩ := setLoop_owns c lt _ _ _ _ [] _ _ _ hl
    refine ⟨lost, h1.trans List.perm_append_comm, fun hk P hP hk' => ?_⟩
    exact h2 hk (by simp; omega) P hP hk'
  · intro P hP hk
    refine setLoop_tok c lt _ _ P _ _ [] _ _ _ hl hP ?_
    rw [List.take_append_drop]
    exact hk
  · intro Q hQ hs hk
    refine setLoop_below c lt _ _ Q hQ _ _ [] _ _ _ hl hs ?_
    simpa using hk

theorem unset_inv {c : Calls V} {s s' : Store V} {k : Bytes} {d : List (Option V)}
    (h : unset c s k = .ok (s', d)) : ∃ l, s = .live l ∧
      ((unsetLoop c k.length false k l = .ok none ∧ s' = .live l ∧ d = []) ∨
       ∃ l', s' = .live l' ∧ unsetLoop c k.length false k l = .ok (some (l', d))) := by
  cases s with
  | dangling => simp [unset, Store.list, bind, Except.bind] at h
  | live l =>
    refine ⟨l, rfl, ?_⟩
    simp only [unset, Store.list, bind, Except.bind] at h
    split at h
    · cases h
    rename_i x hx
    split at h
    · cases h; exact .inl ⟨hx, rfl, rfl⟩
    · rename_i x y; cases h; exact .inr ⟨_, rfl, hx⟩

theorem unset_owns {c : Calls V} {s s' : Store V} {k : Bytes} {d : List (Option V)}
    (h : unset c s k = .ok (s', d)) :
    (∃ lost, (freed d ++ held s' ++ lost).Perm (held s) ∧ (c.dtor = true → lost = [])) ∧
    (∀ P, TOKS P s → TOKS P s') ∧ (∀ Q : Bytes → Prop, AllS Q s → AllS Q s') := by
  obtain ⟨l, rfl, ⟨h1, rfl, rfl⟩ | ⟨l', rfl, h1⟩⟩ := unset_inv h
  · exact ⟨⟨[], by simp, fun _ => rfl⟩, fun _ h => h, fun _ h => h⟩
  · have := unsetLoop_owns c _ _ _ [] _ _ _ h1
    exact ⟨this.1, fun P hP => unsetLoop_tok c P _ _ _ [] _ _ _ h1 hP, this.2⟩

theorem clear_owns {c : Calls V} {s s' : Store V} {d : List (Option V)}
    (h : clear c s = .ok (s', d)) :
    (∃ lost, (freed d ++ held s' ++ lost).Perm (held s) ∧ (c.dtor = true → lost = [])) ∧
    (∀ P, TOKS P s → TOKS P s') ∧ (∀ Q : Bytes → Prop, AllS Q s → AllS Q s') := by
  cases s with
  | dangling => simp [clear, Store.list, bind, Except.bind] at h
  | live l =>
    simp only [clear, Store.list, bind, Except.bind] at h
    split at h
    · cases h
      exact ⟨⟨[], by simp, fun _ => rfl⟩, fun _ h => h, fun _ h => h⟩
    · rename_i e
      cases h
      refine ⟨?_, fun _ _ => trivial, fun _ _ => trivial⟩
      simp only [dropped]
      cases hc : c.dtor with
      | true => exact ⟨[], by simp [held, e], fun _ => rfl⟩
      | false => exact ⟨dropList l.items, by simp [held], by simp⟩

theorem freed_perm4 {a b h' g l1 l2 x y : List V} (h1 : (a ++ h' ++ l1).Perm (g ++ x))
    (h2 : (b ++ y ++ l2).Perm (h' ++ z)) : (a ++ b ++ y ++ (l1 ++ l2)).Perm (g ++ (x ++ z)) := by
  classical
  rw [List.perm_iff_count] at *
  intro w
  have e1 := h1 w
  have e2 := h2 w
  simp only [List.count_append] at *
  omega

theorem call_owns {c : Calls V} {lt : UInt8 → UInt8 → Bool} {s s' : Store V} {x : Call V}
    {d : List (Option V)} (h : call c lt s x = .ok (s', d)) :
    (∃ lost, (freed d ++ held s' ++ lost).Perm (held s ++ handedBy c x) ∧
      (c.dtor = true → written x ≠ some [] → ∀ P, TOKS P s →
        (∀ k k', written x = some k → ProperPrefix k k' → ¬ P k') → lost = [])) ∧
    (∀ P, TOKS P s → (∀ k p, given x = some k → p <+: k → P p) → TOKS P s') ∧
    (∀ Q : Bytes → Prop, (∀ p q, p <+: q → Q q → Q p) → AllS Q s → (∀ k, given x = some k → Q k) →
      AllS Q s') := by
  cases x with
  | set k v =>
    obtain ⟨⟨lost, h1, h2⟩, h3, h4⟩ := setN_owns (n := k.length) h
    refine ⟨⟨lost, h1, fun _ hw P hP hk => ?_⟩, fun P hP hk => h3 P hP (hk k · rfl),
      fun Q hQ hs hk => h4 Q hQ hs (hk k rfl)⟩
    simp only [List.take_length] at h2
    exact h2 (fun e => hw (by rw [e]; rfl)) P hP (hk k · rfl)
  | setN k n v =>
    obtain ⟨⟨lost, h1, h2⟩, h3, h4⟩ := setN_owns (n := n) h
    refine ⟨⟨lost, h1, fun _ hw P hP hk => ?_⟩, fun P hP hk => h3 P hP (hk k · rfl),
      fun Q hQ hs hk => h4 Q hQ hs (hk k rfl)⟩
    exact h2 (fun e => hw (by simp only [written]; rw [e])) P hP (hk _ · rfl)
  | unset k =>
    obtain ⟨⟨lost, h1, h2⟩, h3, h4⟩ := unset_owns h
    exact ⟨⟨lost, by simpa [handedBy] using h1, fun hc _ _ _ _ => h2 hc⟩, fun P hP _ => h3 P hP,
      fun Q _ hs _ => h4 Q hs⟩
  | clear =>
    obtain ⟨⟨lost, h1, h2⟩, h3, h4⟩ := clear_owns h
    exact ⟨⟨lost, by simpa [handedBy] using h1, fun hc _ _ _ _ => h2 hc⟩, fun P hP _ => h3 P hP,
      fun Q _ hs _ => h4 Q hs⟩

theorem run_cons {c : Calls V} {lt : UInt8 → UInt8 → Bool} {s s' : Store V} {x : Call V}
    {xs : List (Call V)} {d : List (Option V)} (h : run c lt s (x :: xs) = .ok (s', d)) :
    ∃ s1 d1 d2, call c lt s x = .ok (s1, d1) ∧ run c lt s1 xs = .ok (s', d2) ∧ d = d1 ++ d2 := by
  simp only [run] at h
  split at h
  · cases h
  rename_i s1 d1 h1
  split at h
  · cases h
  rename_i s2 d2 h2
  cases h
  exact ⟨s1, d1, d2, h1, h2, rfl⟩

theorem run_owns {c : Calls V} {lt : UInt8 → UInt8 → Bool} (xs : List (Call V)) {s s' : Store V}
    {d : List (Option V)} (h : run c lt s xs = .ok (s', d)) :
    ∃ lost, (freed d ++ held s' ++ lost).Perm (held s ++ handed c xs) ∧
      (c.dtor = true → Orderly xs → ∀ P, TOKS P s →
        (∀ x ∈ xs, ∀ k k', written x = some k → ProperPrefix k k' → ¬ P k') → lost = []) := by
  induction xs generalizing s d with
  | nil =>
    simp only [run] at h; cases h
    exact ⟨[], by simp [handed], fun _ _ _ _ _ => rfl⟩
  | cons x xs ih =>
    obtain ⟨s1, d1, d2, h1, h2, rfl⟩ := run_cons h
    obtain ⟨⟨l1, a1, a2⟩, a3, -⟩ := call_owns h1
    obtain ⟨l2, b1, b2⟩ := ih h2
    refine ⟨l1 ++ l2, ?_, ?_⟩
    · have := freed_perm4 a1 b1
      simp only [freed_append]
      simpa [handed] using this
    · intro hc ho P hP hk
      have e1 := a2 hc (ho.1 x (by simp)) P hP (hk x (by simp))
      have hpw := List.pairwise_cons.1 ho.2
      have hP' : TOKS (fun p => P p ∨ ∃ k, given x = some k ∧ p <+: k) s := by
        cases s with
        | live l => exact hP.mono fun _ h => .inl h
        | dangling => trivial
      have e2 := b2 hc ⟨fun y hy => ho.1 y (by simp [hy]), hpw.2⟩ _
        (a3 _ hP' fun k p hg hp => .inr ⟨k, hg, hp⟩) (by
          rintro y hy k k' hw hpp (hp | ⟨g, hg, r, rfl⟩)
          · exact hk y (by simp [hy]) k k' hw hpp hp
          · obtain ⟨b, bs, rfl⟩ := hpp
            exact hpw.1 y hy k _ hw hg ⟨b, bs ++ r, by simp⟩)
      rw [e1, e2]; rfl

theorem run_below {c : Calls V} {lt : UInt8 → UInt8 → Bool} (xs : List (Call V)) {s s' : Store V}
    {d : List (Option V)} (h : run c lt s xs = .ok (s', d)) (Q : Bytes → Prop)
    (hQ : ∀ p q, p <+: q → Q q → Q p) (hs : AllS Q s) (hk : ∀ x ∈ xs, ∀ k, given x = some k → Q k) :
    AllS Q s' := by
  induction xs generalizing s d with
  | nil => simp only [run] at h; cases h; exact hs
  | cons x xs ih =>
    obtain ⟨s1, d1, d2, h1, h2, rfl⟩ := run_cons h
    obtain ⟨-, -, a3⟩ := call_owns h1
    exact ih h2 (a3 Q hQ hs (hk x (by simp))) fun y hy => hk y (by simp [hy])

/-! ## Reads -/

mutual
theorem preN_vals (p : Bytes) : (n : Node V) → (RTree.preN p n).map (·.2) = dropNode n
  | .mk key data sub tail => by
    rw [RTree.preN, dropNode, List.map_append, preL_vals]
    cases data <;> simp [RTree.emit]
theorem preL_vals (p : Bytes) : (l : List (Node V)) → (RTree.preL p l).map (·.2) = dropList l
  | [] => by simp [RTree.preL]
  | n :: ns => by rw [RTree.preL, dropList_cons, List.map_append, preN_vals, preL_vals]
end

theorem values_live (l : HSList (Node V)) : values (.live l) = .ok (dropList l.items) := by
  simp only [values, Store.list, bind, Except.bind, RTree.values, RTree.pairs_eq]
  rw [preL_vals]

theorem values_ok {s : Store V} {vs : List V} (h : values s = .ok vs) :
    (∃ l, s = .live l) ∧ vs = held s := by
  cases s with
  | dangling => cases h
  | live l => rw [values_live] at h; cases h; exact ⟨⟨l, rfl⟩, rfl⟩

theorem getLoop_held (fuel : Nat) (k : Bytes) (l : List (Node V)) (v : V)
    (h : RTree.getLoop fuel k l = some v) : v ∈ dropList l := by
  induction fuel generalizing k l with
  | zero => simp [RTree.getLoop] at h
  | succ fuel ih =>
    cases k with
    | nil => simp [RTree.getLoop] at h
    | cons b bs =>
      simp only [RTree.getLoop] at h
      cases hfd : RTree.findAt b l with
      | none => simp [hfd] at h
      | some r =>
        obtain ⟨i, n⟩ := r
        obtain ⟨pr, post, hitems, hi, hh⟩ := findAt_some hfd
        have hn : ∀ x, x ∈ dropNode n → x ∈ dropList l := by
          intro x hx
          rw [dropList_eq, List.mem_flatMap]
          exact ⟨n, by rw [hitems]; simp, hx⟩
        simp only [hfd] at h
        split at h
        · exact hn v (by rw [dropNode_eq, h]; simp)
        · exact hn v (by rw [dropNode_eq]; exact List.mem_append_right _ (ih _ _ h))
        · cases h
        · cases h

theorem get_held {s : Store V} {k : Bytes} {v : V} (h : get s k = .ok (some v)) :
    values s = .ok (held s) ∧ v ∈ held s := by
  cases s with
  | dangling => cases h
  | live l =>
    refine ⟨values_live l, ?_⟩
    simp only [get, Store.list, bind, Except.bind] at h
    exact getLoop_held _ _ _ _ (Except.ok.inj h)

theorem destroy_ok {c : Calls V} {s : Store V} {d : List (Option V)} (h : destroy c s = .ok d) :
    freed d = (if c.dtor then held s else []) := by
  cases s with
  | dangling => cases h
  | live l =>
    simp only [destroy, Store.list, bind, Except.bind, dropped] at h
    cases h
    split <;> simp [held]

end Comps.Radix
