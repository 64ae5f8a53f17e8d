import Verif.Lemmas.RTreeList

/-!
# Lemmas about copies, unite and unset
-/

namespace Comps.RTree
variable {V : Type}

theorem foldl_append_tail (xs : List (Node V)) (l : HSList (Node V)) (h : l.tailSet = true) :
    xs.foldl HSList.append l = ⟨l.items ++ xs, true⟩ := by
  induction xs generalizing l with
  | nil => cases l; simp_all
  | cons x xs ih =>
    simp only [List.foldl_cons]
    rw [ih _ (by simp [HSList.append, h])]
    simp [HSList.append, h]

theorem ofAppends_eq (xs : List (Node V)) : HSList.ofAppends xs = ⟨xs, !xs.isEmpty⟩ := by
  cases xs with
  | nil => rfl
  | cons x xs =>
    simp only [HSList.ofAppends, List.foldl_cons]
    rw [foldl_append_tail _ _ (by simp [HSList.append, HSList.empty])]
    simp [HSList.append, HSList.empty]

theorem cloneList_eq (f : V → V) (l : List (Node V)) : cloneList f l = l.map (cloneNode f) := by
  induction l with
  | nil => simp [cloneList]
  | cons n ns ih => simp [cloneList, ih]

theorem cloneNode_eq (f : V → V) (n : Node V) :
    cloneNode f n = .mk n.key (n.data.map f) (n.sub.map (cloneNode f)) (!n.sub.isEmpty) := by
  cases n
  simp [cloneNode, Node.ofList, ofAppends_eq, cloneList_eq]

@[simp] theorem cloneNode_key (f : V → V) (n : Node V) : (cloneNode f n).key = n.key := by
  rw [cloneNode_eq, key_mk]

/-- The child list of a copy. -/
def cloneHS (f : V → V) (l : List (Node V)) : HSList (Node V) :=
  ⟨l.map (cloneNode f), !l.isEmpty⟩

theorem clone_subnodes (f : V → V) (t : RTree V) :
    (clone f t).subnodes = cloneHS f t.subnodes.items := by
  simp [clone, ofAppends_eq, cloneList_eq, cloneHS]

theorem copy_subnodes (f : V → V) (t : RTree V) :
    (copy f t).subnodes = cloneHS f t.subnodes.items := by
  simp [copy, ofAppends_eq, cloneList_eq, cloneHS]

theorem cloneNode_subnodes (f : V → V) (n : Node V) :
    (cloneNode f n).subnodes = cloneHS f n.sub := by
  rw [cloneNode_eq]; rfl

theorem cloneHS_wf (f : V → V) {l : HSList (Node V)} (hl : WF l) : WF (cloneHS f l.items) := by
  induction hl with
  | mk l h1 h2 h3 h4 ih =>
    refine .mk _ ?_ ?_ ?_ ?_
    · simp only [cloneHS, List.mem_map, forall_exists_index, and_imp, forall_apply_eq_imp_iff₂,
        cloneNode_key]
      exact h1
    · simpa only [cloneHS, List.pairwise_map, cloneNode_key] using h2
    · cases hi : l.items <;> simp [cloneHS]
    · simp only [cloneHS, List.mem_map, forall_exists_index, and_imp, forall_apply_eq_imp_iff₂,
        cloneNode_subnodes]
      exact ih

theorem cloneHS_tok (f : V → V) (P : Bytes → Prop) (pre : Bytes) {l : HSList (Node V)}
    (hl : WF l) : TOK P pre (cloneHS f l.items) := by
  induction hl generalizing pre with
  | mk l h1 h2 h3 h4 ih =>
    refine .mk _ _ ?_ ?_
    · cases hi : l.items <;> simp [cloneHS]
    · simp only [cloneHS, List.mem_map, forall_exists_index, and_imp, forall_apply_eq_imp_iff₂,
        cloneNode_subnodes]
      exact fun n hn => ih n hn _

theorem emit_map (f : V → V) (k : Bytes) (d : Option V) :
    emit k (d.map f) = (emit k d).map fun e => (e.1, f e.2) := by
  cases d <;> simp [emit]

theorem preL_clone (f : V → V) {l : HSList (Node V)} (hl : WF l) (p : Bytes) :
    preL p (l.items.map (cloneNode f)) = (preL p l.items).map fun e => (e.1, f e.2) := by
  induction hl generalizing p with
  | mk l h1 h2 h3 h4 ih =>
    rw [preL_eq, preL_eq, List.flatMap_map, List.map_flatMap]
    simp only [List.flatMap]
    congr 1
    apply List.map_congr_left
    intro n hn
    rw [preN_eq, preN_eq, cloneNode_eq]
    simp only [key_mk, data_mk, sub_mk, List.map_append, emit_map]
    have := ih n hn (p ++ n.key)
    simp only [subnodes_items] at this
    rw [this]

theorem listLk_clone (f : V → V) {l : HSList (Node V)} (hl : WF l) (k : Bytes) :
    listLk (l.items.map (cloneNode f)) k = (listLk l.items k).map f := by
  induction hl generalizing k with
  | mk l h1 h2 h3 h4 ih =>
    have key : ∀ n ∈ l.items, nodeLk (cloneNode f n) k = (nodeLk n k).map f := by
      intro n hn
      rw [nodeLk_eq, nodeLk_eq n, cloneNode_eq]
      simp only [key_mk, data_mk, sub_mk]
      have := ih n hn (k.drop n.key.length)
      simp only [subnodes_items] at this
      by_cases a : k = n.key
      · simp [a]
      · by_cases b : n.key <+: k
        · simp only [if_neg a, if_pos b, this]
        · simp [if_neg a, if_neg b]
    clear ih h1 h2 h3 h4
    revert key
    generalize l.items = r
    intro key
    induction r with
    | nil => simp [listLk]
    | cons n ns ih =>
      simp only [List.map_cons]
      rw [listLk_cons, listLk_cons, cloneNode_key]
      by_cases a : n.key.head? = k.head?
      · rw [if_pos a, if_pos a, key n (by simp)]
      · rw [if_neg a, if_neg a, ih fun m hm => key m (by simp [hm])]

/-! ## Invariant on all nodes -/

/-- Every node below `pre` satisfies `Q` of its full key and data. -/
inductive AllN (Q : Bytes → Option V → Prop) : Bytes → HSList (Node V) → Prop
  | mk (pre : Bytes) (l : HSList (Node V)) :
      (∀ n ∈ l.items, Q (pre ++ n.key) n.data) →
      (∀ n ∈ l.items, AllN Q (pre ++ n.key) n.subnodes) → AllN Q pre l

theorem AllN.top {Q : Bytes → Option V → Prop} {pre : Bytes} {l : HSList (Node V)}
    (h : AllN Q pre l) : ∀ n ∈ l.items, Q (pre ++ n.key) n.data := by cases h; assumption
theorem AllN.sub {Q : Bytes → Option V → Prop} {pre : Bytes} {l : HSList (Node V)}
    (h : AllN Q pre l) : ∀ n ∈ l.items, AllN Q (pre ++ n.key) n.subnodes := by cases h; assumption

theorem AllN.mono {Q R : Bytes → Option V → Prop} (hQR : ∀ b d, Q b d → R b d) {pre : Bytes}
    {l : HSList (Node V)} (h : AllN Q pre l) : AllN R pre l := by
  induction h with
  | mk pre l h1 _ ih => exact .mk pre l (fun n hn => hQR _ _ (h1 n hn)) ih

theorem alln_empty (Q : Bytes → Option V → Prop) (pre : Bytes) :
    AllN Q pre (HSList.empty : HSList (Node V)) := .mk _ _ (by simp) (by simp)

theorem alln_of_perm {Q : Bytes → Option V → Prop} {pre : Bytes} {l : HSList (Node V)}
    {r : List (Node V)} (hp : l.items.Perm r) (h1 : ∀ n ∈ r, Q (pre ++ n.key) n.data)
    (h2 : ∀ n ∈ r, AllN Q (pre ++ n.key) n.subnodes) : AllN Q pre l :=
  .mk _ _ (fun n hn => h1 n (hp.mem_iff.1 hn)) fun n hn => h2 n (hp.mem_iff.1 hn)

theorem setLoop_alln (lt : UInt8 → UInt8 → Bool) (v : Option V) (Q : Bytes → Option V → Prop)
    (fuel : Nat) (k pre : Bytes) (l : HSList (Node V)) (hl : WF l) (ht : AllN Q pre l)
    (hk : Q (pre ++ k) v)
    (hsp : ∀ p a b as bs d, k = p ++ b :: bs → a ≠ b → Q (pre ++ p ++ a :: as) d →
      Q (pre ++ p) none) :
    AllN Q pre (setLoop lt v [] fuel k l).1 := by
  induction fuel generalizing k pre l with
  | zero => cases k <;> exact ht
  | succ fuel ih =>
    cases k with
    | nil => exact ht
    | cons c cs =>
      cases set_step lt v fuel c cs l with
      | fresh h1 h2 h3 _ =>
        refine alln_of_perm h2 ?_ ?_
        · simp only [List.mem_cons, forall_eq_or_imp]
          exact ⟨hk, ht.top⟩
        · simp only [List.mem_cons, forall_eq_or_imp]
          exact ⟨alln_empty _ _, ht.sub⟩
      | both n r h1 h2 h3 h4 _ =>
        refine alln_of_perm h3 ?_ ?_
        · simp only [List.mem_cons, forall_eq_or_imp, key_mk, data_mk]
          exact ⟨by rw [h1]; exact hk, fun m hm => ht.top m (h2.mem_iff.2 (by simp [hm]))⟩
        · simp only [List.mem_cons, forall_eq_or_imp]
          exact ⟨ht.sub n (h2.mem_iff.2 (by simp)),
            fun m hm => ht.sub m (h2.mem_iff.2 (by simp [hm]))⟩
      | prefixed n r a as h1 h2 h3 h4 _ =>
        have hn : n ∈ l.items := h2.mem_iff.2 (by simp)
        have e : pre ++ n.key = pre ++ c :: cs ++ a :: as := by rw [h1]; simp
        have hmr : ∀ m ∈ (if l.tailSet then r else []), m ∈ l.items := by
          intro m hm
          cases hlt : l.tailSet with
          | false => simp [hlt] at hm
          | true => simp [hlt] at hm; exact h2.mem_iff.2 (by simp [hm])
        refine alln_of_perm h3 ?_ ?_
        · simp only [List.mem_cons, forall_eq_or_imp, key_mk, data_mk]
          exact ⟨hk, fun m hm => ht.top m (hmr m hm)⟩
        · simp only [List.mem_cons, forall_eq_or_imp]
          refine ⟨?_, fun m hm => ht.sub m (hmr m hm)⟩
          refine .mk _ _ ?_ ?_
          · simp only [subnodes_mk, List.mem_singleton, forall_eq, key_mk, data_mk]
            rw [← e]; exact ht.top n hn
          · simp only [subnodes_mk, List.mem_singleton, forall_eq, key_mk]
            rw [← e]; exact ht.sub n hn
      | deeper n r a as h1 h2 h3 h4 h5 _ =>
        have hs := perm_wf_sub hl h3
        have hn : n ∈ l.items := h3.mem_iff.2 (by simp)
        refine alln_of_perm h4 ?_ ?_
        · simp only [List.mem_cons, forall_eq_or_imp, ofList_key, ofList_data]
          exact ⟨ht.top n hn, fun m hm => ht.top m (h3.mem_iff.2 (by simp [hm]))⟩
        · simp only [List.mem_cons, forall_eq_or_imp]
          refine ⟨?_, fun m hm => ht.sub m (h3.mem_iff.2 (by simp [hm]))⟩
          refine ih (a :: as) (pre ++ n.key) n.subnodes hs.1 (ht.sub n hn) ?_ ?_
          · rw [List.append_assoc, ← h1]; exact hk
          · intro p x y xs ys d e hxy hq
            rw [List.append_assoc]
            refine hsp (n.key ++ p) x y xs ys d ?_ hxy ?_
            · rw [h1, e]; simp
            · simpa using hq
      | split n r p a b as bs subs h1 h2 h3 h4 h5 h6 h7 h8 _ =>
        have hn : n ∈ l.items := h4.mem_iff.2 (by simp)
        have e : pre ++ n.key = pre ++ c :: p ++ a :: as := by rw [h1]; simp
        have e2 : pre ++ c :: cs = pre ++ c :: p ++ b :: bs := by rw [h2]; simp
        have hq := ht.top n hn
        rw [e] at hq
        refine alln_of_perm h7 ?_ ?_
        · simp only [List.mem_cons, forall_eq_or_imp, ofList_key, ofList_data]
          exact ⟨hsp (c :: p) a b as bs _ h2 h3 hq,
            fun m hm => ht.top m (h4.mem_iff.2 (by simp [hm]))⟩
        · simp only [List.mem_cons, forall_eq_or_imp, ofList_key, ofList_subnodes]
          refine ⟨?_, fun m hm => ht.sub m (h4.mem_iff.2 (by simp [hm]))⟩
          refine alln_of_perm h5 ?_ ?_
          · simp only [List.mem_cons, forall_eq_or_imp, key_mk, data_mk, leaf_key, leaf_data,
              List.not_mem_nil, false_implies, implies_true, and_true]
            exact ⟨hq, by rw [← e2]; exact hk⟩
          · simp only [List.mem_cons, forall_eq_or_imp, key_mk, leaf_key,
              leaf_subnodes, List.not_mem_nil, false_implies, implies_true, and_true]
            refine ⟨?_, alln_empty _ _⟩
            rw [← e]; exact ht.sub n hn

theorem cloneHS_alln (f : V → V) (Q : Bytes → Option V → Prop) (hf : ∀ b d, Q b d → Q b (d.map f))
    {pre : Bytes} {l : HSList (Node V)} (h : AllN Q pre l) : AllN Q pre (cloneHS f l.items) := by
  induction h with
  | mk pre l h1 h2 ih =>
    refine .mk _ _ ?_ ?_
    · simp only [cloneHS, List.mem_map, forall_exists_index, and_imp, forall_apply_eq_imp_iff₂,
        cloneNode_key]
      intro n hn
      rw [cloneNode_eq, data_mk]
      exact hf _ _ (h1 n hn)
    · simp only [cloneHS, List.mem_map, forall_exists_index, and_imp, forall_apply_eq_imp_iff₂,
        cloneNode_key, cloneNode_subnodes]
      exact ih

/-! ## unite -/

/-- The `set` calls of `comps_objrtree_unite`, in order. -/
def uniteCalls : Nat → List (Bytes × List (Node V)) → List (Bytes × V)
  | 0, _ => []
  | _ + 1, [] => []
  | fuel + 1, (k, l) :: queue =>
    l.flatMap (fun n => emit (k ++ n.key) n.data) ++
    uniteCalls fuel
      (queue ++ (l.filter fun n => !n.sub.isEmpty).map fun n => (k ++ n.key, n.sub))

/-- Fold of `set` over a list of pairs. -/
def setAll (lt : UInt8 → UInt8 → Bool) (t : RTree V) (calls : List (Bytes × Option V)) : RTree V :=
  calls.foldl (fun t e => t.set lt e.1 e.2) t

/-- A listing as a list of writes. -/
def asWrites (l : List (Bytes × V)) : List (Bytes × Option V) := l.map fun e => (e.1, some e.2)

theorem uniteItems_eq (lt : UInt8 → UInt8 → Bool) (k : Bytes) (l : List (Node V)) (t : RTree V) :
    uniteItems lt k l t = setAll lt t (asWrites (l.flatMap fun n => emit (k ++ n.key) n.data)) := by
  induction l generalizing t with
  | nil => rfl
  | cons n ns ih =>
    simp only [uniteItems, List.foldl_cons, List.flatMap_cons, setAll, asWrites, List.map_append,
      List.foldl_append]
    simp only [uniteItems, setAll, asWrites] at ih
    rw [ih]
    cases n.data <;> simp [emit]

theorem uniteLoop_eq (lt : UInt8 → UInt8 → Bool) (fuel : Nat) (q : List (Bytes × List (Node V)))
    (t : RTree V) : uniteLoop lt fuel q t = setAll lt t (asWrites (uniteCalls fuel q)) := by
  induction fuel generalizing q t with
  | zero => rfl
  | succ fuel ih =>
    cases q with
    | nil => rfl
    | cons e es =>
      obtain ⟨k, l⟩ := e
      simp only [uniteLoop, uniteCalls]
      rw [ih, uniteItems_eq]
      simp [setAll, asWrites, List.foldl_append]

/-- Bound on the iterations for a queue. -/
def qBound (q : List (Bytes × List (Node V))) : Nat := (q.map fun e => 1 + listCount e.2).sum

theorem sub_bound (k : Bytes) (l : List (Node V)) :
    qBound ((l.filter fun n => !n.sub.isEmpty).map fun n => (k ++ n.key, n.sub)) ≤ listCount l := by
  induction l with
  | nil => simp [qBound, listCount]
  | cons n ns ih =>
    simp only [listCount, nodeCount_eq, List.filter_cons]
    split
    · simp only [qBound, List.map_cons, List.sum_cons] at *
      omega
    · omega

theorem flatMap_append_perm {α β : Type} (l : List α) (f g : α → List β) :
    (l.flatMap fun a => f a ++ g a).Perm (l.flatMap f ++ l.flatMap g) := by
  induction l with
  | nil => simp
  | cons a as ih =>
    simp only [List.flatMap_cons, List.append_assoc]
    refine List.Perm.append_left _ ?_
    refine (List.Perm.append_left _ ih).trans ?_
    rw [← List.append_assoc, ← List.append_assoc]
    exact List.Perm.append_right _ List.perm_append_comm

theorem uniteCalls_perm (fuel : Nat) (q : List (Bytes × List (Node V))) (h : qBound q ≤ fuel) :
    (uniteCalls fuel q).Perm (q.flatMap fun e => preL e.1 e.2) := by
  induction fuel generalizing q with
  | zero =>
    cases q with
    | nil => exact List.Perm.refl _
    | cons e es => simp [qBound] at h
  | succ fuel ih =>
    cases q with
    | nil => exact List.Perm.refl _
    | cons e es =>
      obtain ⟨k, l⟩ := e
      simp only [uniteCalls, List.flatMap_cons]
      have hb := sub_bound k l
      refine (List.Perm.append_left _ (ih _ ?_)).trans ?_
      · simp only [qBound, List.map_append, List.sum_append, List.map_cons, List.sum_cons] at *
        omega
      · rw [List.flatMap_append]
        have h1 : (((l.filter fun n => !n.sub.isEmpty).map fun n => (k ++ n.key, n.sub)).flatMap
            fun e => preL e.1 e.2) = l.flatMap fun n => preL (k ++ n.key) n.sub := by
          clear h hb ih
          induction l with
          | nil => rfl
          | cons n ns ih =>
            simp only [List.filter_cons, List.flatMap_cons]
            rw [← ih]
            cases hs : n.sub with
            | nil => simp [preL]
            | cons a as => simp [List.flatMap_cons, hs]
        rw [h1, preL_eq]
        have h2 : (l.flatMap (preN k)).Perm
            ((l.flatMap fun n => emit (k ++ n.key) n.data) ++
              l.flatMap fun n => preL (k ++ n.key) n.sub) := by
          have : preN (V := V) k = fun n => emit (k ++ n.key) n.data ++ preL (k ++ n.key) n.sub := by
            funext n; exact preN_eq k n
          rw [this]
          exact flatMap_append_perm _ _ _
        refine List.Perm.trans ?_ (List.Perm.append_right _ h2.symm)
        rw [List.append_assoc]
        exact List.Perm.append_left _ List.perm_append_comm

end Comps.RTree
