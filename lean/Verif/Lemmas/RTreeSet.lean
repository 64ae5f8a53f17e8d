import Verif.Lemmas.RTree

/-!
# Lemmas about `set`
-/

namespace Comps.RTree
variable {V : Type}

/-- Items of a well-formed list, without the recursive part. -/
def Heads (l : List (Node V)) : Prop :=
  (∀ n ∈ l, n.key ≠ []) ∧ l.Pairwise (fun a b => a.key.head? ≠ b.key.head?)

theorem WF.heads {l : HSList (Node V)} (h : WF l) : Heads l.items := ⟨h.ne, h.pw⟩

theorem heads_perm {l l' : List (Node V)} (h : l.Perm l') (hl : Heads l) : Heads l' :=
  ⟨fun n hn => hl.1 n (h.mem_iff.2 hn),
   (List.Perm.pairwise_iff (fun hab => Ne.symm hab) h).1 hl.2⟩

theorem listLk_perm {l l' : List (Node V)} (h : l.Perm l') (hl : Heads l) (k : Bytes) :
    listLk l k = listLk l' k := by
  have hl' := heads_perm h hl
  by_cases hex : ∃ n ∈ l, n.key.head? = k.head?
  · obtain ⟨n, hn, hk⟩ := hex
    rw [listLk_of_mem hl.2 hn hk, listLk_of_mem hl'.2 (h.mem_iff.1 hn) hk]
  · have h1 : ∀ n ∈ l, n.key.head? ≠ k.head? := fun n hn hk => hex ⟨n, hn, hk⟩
    rw [listLk_none h1, listLk_none fun n hn => h1 n (h.mem_iff.2 hn)]

theorem heads_cons {n : Node V} {r : List (Node V)} :
    Heads (n :: r) ↔ n.key ≠ [] ∧ (∀ m ∈ r, n.key.head? ≠ m.key.head?) ∧ Heads r := by
  simp only [Heads, List.mem_cons, forall_eq_or_imp, List.pairwise_cons]
  constructor
  · rintro ⟨⟨a, b⟩, c, d⟩; exact ⟨a, c, b, d⟩
  · rintro ⟨a, c, b, d⟩; exact ⟨⟨a, b⟩, c, d⟩

/-- Replacing a node by another with the same first byte. -/
theorem heads_replace {n n' : Node V} {r : List (Node V)} (h : Heads (n :: r))
    (hk : n'.key ≠ []) (hh : n'.key.head? = n.key.head?) : Heads (n' :: r) := by
  rw [heads_cons] at h ⊢
  exact ⟨hk, fun m hm => hh ▸ h.2.1 m hm, h.2.2⟩

theorem wf_of {l : HSList (Node V)} (h : Heads l.items) (ht : l.tailSet = true → l.items ≠ [])
    (hs : ∀ n ∈ l.items, WF n.subnodes) : WF l := .mk l h.1 h.2 ht hs

theorem nodeLk_append (p q : Bytes) (d : Option V) (s t) (r : Bytes) (_hq : q ≠ []) :
    nodeLk (.mk (p ++ q) d s t) (p ++ r) = nodeLk (.mk q d s t) r := by
  simp only [nodeLk_eq, key_mk, data_mk, sub_mk, List.append_cancel_left_eq,
    List.prefix_append_right_inj]
  have : (p ++ r).drop (p ++ q).length = r.drop q.length := by
    simp [List.drop_append]
  rw [this]

theorem nodeLk_not_prefix (p q : Bytes) (d : Option V) (s t) (k : Bytes) (h : ¬ p <+: k) :
    nodeLk (.mk (p ++ q) d s t) k = none := by
  simp only [nodeLk_eq, key_mk, data_mk, sub_mk]
  have h1 : ¬ k = p ++ q := fun e => h (e ▸ List.prefix_append _ _)
  have h2 : ¬ (p ++ q) <+: k := fun e => h ((List.prefix_append _ _).trans e)
  rw [if_neg h1, if_neg h2]

theorem lesserAt_lt (lt : UInt8 → UInt8 → Bool) (c : UInt8) (l : List (Node V)) {i : Nat}
    (h : lesserAt lt c l = some i) : i < l.length := by
  induction l generalizing i with
  | nil => simp [lesserAt] at h
  | cons n ns ih =>
    simp only [lesserAt] at h
    cases hr : lesserAt lt c ns with
    | some j => simp [hr] at h; have := ih hr; simp; omega
    | none =>
      simp only [hr] at h
      split at h
      · simp at h
      · split at h <;> simp at h; subst h; simp

/-- The four shapes of one step of `set`; `l` is the list before, `l'` after. -/
inductive Step (lt : UInt8 → UInt8 → Bool) (v : Option V) (fuel : Nat) (c : UInt8) (cs : Bytes)
    (l l' : HSList (Node V)) (d : Nat) : Prop
  | fresh : (∀ n ∈ l.items, n.key.head? ≠ some c) →
      l'.items.Perm (Node.leaf (c :: cs) v :: l.items) → l'.tailSet = l.tailSet → d = 1 →
      Step lt v fuel c cs l l' d
  | both (n : Node V) (r : List (Node V)) : n.key = c :: cs → l.items.Perm (n :: r) →
      l'.items.Perm (Node.mk n.key v n.sub n.tail :: r) → l'.tailSet = l.tailSet → d = 0 →
      Step lt v fuel c cs l l' d
  | prefixed (n : Node V) (r : List (Node V)) (a : UInt8) (as : Bytes) :
      n.key = (c :: cs) ++ a :: as → l.items.Perm (n :: r) →
      (l'.items.Perm (Node.mk (c :: cs) v [Node.mk (a :: as) n.data n.sub n.tail] true ::
        (if l.tailSet then r else []))) → l'.tailSet = true → d = 1 →
      Step lt v fuel c cs l l' d
  | deeper (n : Node V) (r : List (Node V)) (a : UInt8) (as : Bytes) :
      c :: cs = n.key ++ a :: as → n.key.head? = some c → l.items.Perm (n :: r) →
      l'.items.Perm (Node.ofList n.key n.data (setLoop lt v [] fuel (a :: as) n.subnodes).1 :: r) →
      l'.tailSet = l.tailSet → d = (setLoop lt v [] fuel (a :: as) n.subnodes).2 →
      Step lt v fuel c cs l l' d
  | split (n : Node V) (r : List (Node V)) (p : Bytes) (a b : UInt8) (as bs : Bytes)
      (subs : HSList (Node V)) :
      n.key = c :: p ++ a :: as → c :: cs = c :: p ++ b :: bs → a ≠ b → l.items.Perm (n :: r) →
      subs.items.Perm [Node.mk (a :: as) n.data n.sub n.tail, Node.leaf (b :: bs) v] →
      subs.tailSet = true →
      l'.items.Perm (Node.ofList (c :: p) none subs :: r) →
      l'.tailSet = l.tailSet → d = 1 →
      Step lt v fuel c cs l l' d

theorem perm_mid (pre post : List (Node V)) (n : Node V) :
    (pre ++ n :: post).Perm (n :: (pre ++ post)) := List.perm_middle

theorem set_mid (pre post : List (Node V)) (n n' : Node V) :
    (pre ++ n :: post).set pre.length n' = pre ++ n' :: post := by simp

theorem eraseIdx_mid (pre post : List (Node V)) (n : Node V) :
    (pre ++ n :: post).eraseIdx pre.length = pre ++ post := by
  simp [List.eraseIdx_append_of_length_le]

theorem set_step (lt : UInt8 → UInt8 → Bool) (v : Option V) (fuel : Nat) (c : UInt8) (cs : Bytes)
    (l : HSList (Node V)) :
    Step lt v fuel c cs l (setLoop lt v [] (fuel + 1) (c :: cs) l).1
      (setLoop lt v [] (fuel + 1) (c :: cs) l).2 := by
  simp only [setLoop]
  cases hfd : findAt c l.items with
  | none =>
    cases hls : lesserAt lt c l.items with
    | none => exact .fresh (findAt_none hfd) (List.Perm.refl _) rfl rfl
    | some i =>
      refine .fresh (findAt_none hfd) ?_ rfl rfl
      simp only [HSList.insertAfter]
      refine (perm_mid _ _ _).trans ?_
      simp
  | some r =>
    obtain ⟨i, n⟩ := r
    obtain ⟨pre, post, hitems, hi, hh⟩ := findAt_some hfd
    subst hi
    have hm := matchKey_spec cs hh
    have hp : l.items.Perm (n :: (pre ++ post)) := hitems ▸ perm_mid pre post n
    have hset : ∀ n', (l.setAt pre.length n').items.Perm (n' :: (pre ++ post)) := by
      intro n'
      simp only [HSList.setAt, hitems, set_mid]
      exact perm_mid _ _ _
    simp only
    cases hmk : matchKey n.key (c :: cs) with
    | both y =>
      simp only [hmk] at hm ⊢
      exact .both n _ hm hp (hset _) rfl rfl
    | keyEnds y =>
      simp only [hmk] at hm ⊢
      obtain ⟨⟨a, as, h1⟩, rfl⟩ := hm
      refine .prefixed n (pre ++ post) a as h1 hp ?_ ?_ rfl
      · have hd : n.key.drop (c :: cs).length = a :: as := by rw [h1]; simp
        rw [hd]
        simp only [HSList.append, HSList.removeAt, hitems, eraseIdx_mid]
        cases ht : l.tailSet with
        | false => simp
        | true =>
          cases hr : pre ++ post with
          | nil => simp
          | cons m ms => exact List.perm_append_singleton _ (m :: ms)
      · simp only [HSList.append]; split <;> rfl
    | nodeEnds y =>
      simp only [hmk] at hm ⊢
      obtain ⟨⟨a, as, h1⟩, rfl⟩ := hm
      have hd : (c :: cs).drop n.key.length = a :: as := by rw [h1]; simp
      rw [hd]
      exact .deeper n (pre ++ post) a as h1 hh hp (hset _) rfl rfl
    | differ y =>
      simp only [hmk] at hm ⊢
      obtain ⟨p, a, as, b, bs, h1, h2, h3, rfl⟩ := hm
      have hd1 : (c :: cs).drop (c :: p).length = b :: bs := by rw [h2]; simp
      have hd2 : n.key.drop (c :: p).length = a :: as := by rw [h1]; simp
      have hd3 : n.key.take (c :: p).length = c :: p := by rw [h1]; simp
      rw [hd1, hd2, hd3]
      refine .split n (pre ++ post) p a b as bs _ h1 h2 h3 hp ?_ ?_ (hset _) rfl rfl
      · split
        · simp [HSList.append, HSList.empty]
        · simp [HSList.append, HSList.empty]; exact List.Perm.swap _ _ _
      · split <;> simp [HSList.append, HSList.empty]

theorem perm_wf_sub {l : HSList (Node V)} (hl : WF l) {n : Node V} {r : List (Node V)}
    (hp : l.items.Perm (n :: r)) : WF n.subnodes ∧ ∀ m ∈ r, WF m.subnodes :=
  ⟨hl.sub n (hp.mem_iff.2 (by simp)), fun m hm => hl.sub m (hp.mem_iff.2 (by simp [hm]))⟩

theorem wf_of_perm {l' : HSList (Node V)} {r' : List (Node V)} (hp : l'.items.Perm r')
    (hh : Heads r') (hne : r' ≠ []) (hs : ∀ n ∈ r', WF n.subnodes) : WF l' :=
  wf_of (heads_perm hp.symm hh) (fun _ h => hne (by rw [h] at hp; exact hp.symm.eq_nil))
    fun n hn => hs n (hp.mem_iff.1 hn)

theorem step_wf {lt : UInt8 → UInt8 → Bool} {v : Option V} {fuel : Nat} {c : UInt8} {cs : Bytes}
    {l l' : HSList (Node V)} {d : Nat} (hl : WF l) (h : Step lt v fuel c cs l l' d)
    (ih : ∀ a as (s : HSList (Node V)), WF s → (a :: as).length ≤ cs.length →
      WF (setLoop lt v [] fuel (a :: as) s).1) : WF l' := by
  cases h with
  | fresh h1 h2 h3 _ =>
    refine wf_of_perm h2 ?_ (by simp) ?_
    · rw [heads_cons]
      exact ⟨by simp, fun m hm h => h1 m hm h.symm, hl.heads⟩
    · simp only [List.mem_cons, forall_eq_or_imp]
      exact ⟨wf_empty, hl.sub⟩
  | both n r h1 h2 h3 h4 _ =>
    have hs := perm_wf_sub hl h2
    refine wf_of_perm h3 (heads_replace (heads_perm h2 hl.heads) (by simp [h1]) rfl) (by simp) ?_
    simp only [List.mem_cons, forall_eq_or_imp]
    exact hs
  | prefixed n r a as h1 h2 h3 h4 _ =>
    have hs := perm_wf_sub hl h2
    have hh := heads_perm h2 hl.heads
    have hmoved : WF (⟨[Node.mk (a :: as) n.data n.sub n.tail], true⟩ : HSList (Node V)) := by
      refine wf_of (by simp [Heads]) (by simp) ?_
      simp; exact hs.1
    refine wf_of_perm h3 ?_ (by simp) ?_
    · cases l.tailSet with
      | true => exact heads_replace hh (by simp) (by simp [h1])
      | false => simp [Heads]
    · cases l.tailSet with
      | true => simp only [if_true, List.mem_cons, forall_eq_or_imp]; exact ⟨hmoved, hs.2⟩
      | false => simpa using hmoved
  | deeper n r a as h1 h2 h3 h4 h5 _ =>
    have hs := perm_wf_sub hl h3
    have hh := heads_perm h3 hl.heads
    have hne : n.key ≠ [] := by rw [heads_cons] at hh; exact hh.1
    refine wf_of_perm h4 (heads_replace hh hne rfl) (by simp) ?_
    simp only [List.mem_cons, forall_eq_or_imp]
    refine ⟨?_, hs.2⟩
    have hlen := congrArg List.length h1
    have : 0 < n.key.length := List.length_pos_iff.2 hne
    simp only [List.length_append, List.length_cons] at hlen
    exact ih a as _ hs.1 (by simp only [List.length_cons]; omega)
  | split n r p a b as bs subs h1 h2 h3 h4 h5 h6 h7 h8 _ =>
    have hs := perm_wf_sub hl h4
    have hh := heads_perm h4 hl.heads
    have hsubs : WF subs := by
      refine wf_of_perm h5 ?_ (by simp) ?_
      · simp [Heads]; exact h3
      · simp; exact ⟨hs.1, wf_empty⟩
    refine wf_of_perm h7 (heads_replace hh (by simp) (by simp [h1])) (by simp) ?_
    simp only [List.mem_cons, forall_eq_or_imp]
    exact ⟨hsubs, hs.2⟩

theorem setLoop_wf (lt : UInt8 → UInt8 → Bool) (v : Option V) (fuel : Nat) (k : Bytes)
    (l : HSList (Node V)) (hl : WF l) : WF (setLoop lt v [] fuel k l).1 := by
  induction fuel generalizing k l with
  | zero => cases k <;> exact hl
  | succ fuel ih =>
    cases k with
    | nil => exact hl
    | cons c cs => exact step_wf hl (set_step lt v fuel c cs l) fun a as s hs _ => ih _ s hs

theorem listLk_cons (n : Node V) (r : List (Node V)) (k : Bytes) :
    listLk (n :: r) k = if n.key.head? = k.head? then nodeLk n k else listLk r k := by
  simp [listLk]

theorem listLk_replace {n n' : Node V} {r : List (Node V)} {k : Bytes}
    (hh : n'.key.head? = n.key.head?) (h : n.key.head? = k.head? → nodeLk n' k = nodeLk n k) :
    listLk (n' :: r) k = listLk (n :: r) k := by
  rw [listLk_cons, listLk_cons]
  by_cases hc : n.key.head? = k.head?
  · rw [if_pos hc, if_pos (hh.trans hc), h hc]
  · rw [if_neg hc, if_neg (by rw [hh]; exact hc)]

/-- Reading back the key just written. -/
theorem setLoop_get (lt : UInt8 → UInt8 → Bool) (v : Option V) (fuel : Nat) (k : Bytes)
    (l : HSList (Node V)) (hl : WF l) (hk : k ≠ []) (hf : k.length ≤ fuel) :
    listLk (setLoop lt v [] fuel k l).1.items k = v := by
  induction fuel generalizing k l with
  | zero => cases k <;> simp_all
  | succ fuel ih =>
    cases k with
    | nil => simp at hk
    | cons c cs =>
      have hwf := (setLoop_wf lt v (fuel + 1) (c :: cs) l hl).heads
      cases set_step lt v fuel c cs l with
      | fresh h1 h2 h3 _ => rw [listLk_perm h2 hwf, listLk_cons]; simp [nodeLk_eq]
      | both n r h1 h2 h3 h4 _ => rw [listLk_perm h3 hwf, listLk_cons]; simp [h1, nodeLk_eq]
      | prefixed n r a as h1 h2 h3 h4 _ =>
        rw [listLk_perm h3 hwf, listLk_cons]; simp [nodeLk_eq]
      | deeper n r a as h1 h2 h3 h4 h5 _ =>
        rw [listLk_perm h4 hwf, listLk_cons]
        have hs := perm_wf_sub hl h3
        have hne : n.key ≠ [] := hl.ne n (h3.mem_iff.2 (by simp))
        have h6 : c :: cs ≠ n.key := by rw [h1]; intro h; simpa using congrArg List.length h
        have h7 : n.key <+: c :: cs := by rw [h1]; simp
        have hd : (c :: cs).drop n.key.length = a :: as := by rw [h1]; simp
        rw [if_pos (by simpa using h2), nodeLk_eq]
        simp only [ofList_key, ofList_data, ofList_sub]
        rw [if_neg h6, if_pos h7, hd]
        refine ih (a :: as) n.subnodes hs.1 (by simp) ?_
        have hlen := congrArg List.length h1
        have : 0 < n.key.length := List.length_pos_iff.2 hne
        simp only [List.length_append, List.length_cons] at hlen hf ⊢
        omega
      | split n r p a b as bs subs h1 h2 h3 h4 h5 h6 h7 h8 _ =>
        have hsub : Heads [Node.mk (a :: as) n.data n.sub n.tail, Node.leaf (b :: bs) v] := by
          simp [Heads]; exact h3
        rw [listLk_perm h7 hwf, listLk_cons, if_pos (by simp)]
        rw [nodeLk_eq]
        simp only [ofList_key, ofList_data, ofList_sub]
        have h9 : c :: cs ≠ c :: p := by rw [h2]; intro h; simpa using congrArg List.length h
        have h10 : c :: p <+: c :: cs := by rw [h2]; simp
        have hd : (c :: cs).drop (c :: p).length = b :: bs := by rw [h2]; simp
        rw [if_neg h9, if_pos h10, hd, listLk_perm h5 (heads_perm h5.symm hsub)]
        simp [listLk_cons, nodeLk_eq, h3]

/-! ## Frame -/

/-- Lists whose `last` is NULL hold only nodes whose full key satisfies `P`. -/
inductive TOK (P : Bytes → Prop) : Bytes → HSList (Node V) → Prop
  | mk (pre : Bytes) (l : HSList (Node V)) :
      (l.tailSet = false → ∀ n ∈ l.items, P (pre ++ n.key)) →
      (∀ n ∈ l.items, TOK P (pre ++ n.key) n.subnodes) → TOK P pre l

theorem TOK.top {P : Bytes → Prop} {pre : Bytes} {l : HSList (Node V)} (h : TOK P pre l) :
    l.tailSet = false → ∀ n ∈ l.items, P (pre ++ n.key) := by cases h; assumption
theorem TOK.sub {P : Bytes → Prop} {pre : Bytes} {l : HSList (Node V)} (h : TOK P pre l) :
    ∀ n ∈ l.items, TOK P (pre ++ n.key) n.subnodes := by cases h; assumption

theorem TOK.mono {P Q : Bytes → Prop} (hPQ : ∀ b, P b → Q b) {pre : Bytes} {l : HSList (Node V)}
    (h : TOK P pre l) : TOK Q pre l := by
  induction h with
  | mk pre l h1 _ ih => exact .mk pre l (fun ht n hn => hPQ _ (h1 ht n hn)) ih

theorem tok_empty (P : Bytes → Prop) (pre : Bytes) : TOK P pre (HSList.empty : HSList (Node V)) :=
  .mk _ _ (by simp) (by simp)

theorem tok_of_perm {P : Bytes → Prop} {pre : Bytes} {l : HSList (Node V)} {r : List (Node V)}
    (hp : l.items.Perm r) (h1 : l.tailSet = false → ∀ n ∈ r, P (pre ++ n.key))
    (h2 : ∀ n ∈ r, TOK P (pre ++ n.key) n.subnodes) : TOK P pre l :=
  .mk _ _ (fun ht n hn => h1 ht n (hp.mem_iff.1 hn)) fun n hn => h2 n (hp.mem_iff.1 hn)

/-- `set` keeps the tail invariant when no protected path extends the new key. -/
theorem setLoop_tok (lt : UInt8 → UInt8 → Bool) (v : Option V) (P : Bytes → Prop)
    (fuel : Nat) (k pre : Bytes) (l : HSList (Node V)) (hl : WF l) (ht : TOK P pre l)
    (hP : ∀ p, p <+: k → P (pre ++ p)) :
    TOK P pre (setLoop lt v [] fuel k l).1 := by
  induction fuel generalizing k pre l with
  | zero => cases k <;> exact ht
  | succ fuel ih =>
    cases k with
    | nil => exact ht
    | cons c cs =>
      cases set_step lt v fuel c cs l with
      | fresh h1 h2 h3 _ =>
        refine tok_of_perm h2 ?_ ?_
        · intro hf
          rw [h3] at hf
          simp only [List.mem_cons, forall_eq_or_imp]
          exact ⟨hP _ (List.prefix_refl _), ht.top hf⟩
        · simp only [List.mem_cons, forall_eq_or_imp]
          exact ⟨tok_empty _ _, ht.sub⟩
      | both n r h1 h2 h3 h4 _ =>
        refine tok_of_perm h3 ?_ ?_
        · intro hf
          rw [h4] at hf
          have := ht.top hf
          simp only [List.mem_cons, forall_eq_or_imp]
          exact ⟨this n (h2.mem_iff.2 (by simp)), fun m hm => this m (h2.mem_iff.2 (by simp [hm]))⟩
        · simp only [List.mem_cons, forall_eq_or_imp]
          exact ⟨ht.sub n (h2.mem_iff.2 (by simp)),
            fun m hm => ht.sub m (h2.mem_iff.2 (by simp [hm]))⟩
      | prefixed n r a as h1 h2 h3 h4 _ =>
        refine tok_of_perm h3 (by simp [h4]) ?_
        simp only [List.mem_cons, forall_eq_or_imp]
        refine ⟨?_, ?_⟩
        · refine .mk _ _ (by simp) ?_
          simp only [subnodes_mk, List.mem_singleton, forall_eq, key_mk, List.append_assoc]
          rw [← h1]
          exact ht.sub n (h2.mem_iff.2 (by simp))
        · intro m hm
          cases hlt : l.tailSet with
          | false => simp [hlt] at hm
          | true => simp [hlt] at hm; exact ht.sub m (h2.mem_iff.2 (by simp [hm]))
      | deeper n r a as h1 h2 h3 h4 h5 _ =>
        have hs := perm_wf_sub hl h3
        refine tok_of_perm h4 ?_ ?_
        · intro hf
          rw [h5] at hf
          have := ht.top hf
          simp only [List.mem_cons, forall_eq_or_imp]
          exact ⟨this n (h3.mem_iff.2 (by simp)), fun m hm => this m (h3.mem_iff.2 (by simp [hm]))⟩
        · simp only [List.mem_cons, forall_eq_or_imp]
          refine ⟨?_, fun m hm => ht.sub m (h3.mem_iff.2 (by simp [hm]))⟩
          refine ih (a :: as) (pre ++ n.key) n.subnodes hs.1 (ht.sub n (h3.mem_iff.2 (by simp))) ?_
          intro p hp
          rw [List.append_assoc]
          exact hP _ (by rw [h1]; exact (List.prefix_append_right_inj _).2 hp)
      | split n r p a b as bs subs h1 h2 h3 h4 h5 h6 h7 h8 _ =>
        refine tok_of_perm h7 ?_ ?_
        · intro hf
          rw [h8] at hf
          have := ht.top hf
          simp only [List.mem_cons, forall_eq_or_imp]
          exact ⟨hP _ (by rw [h2]; exact List.prefix_append _ _),
            fun m hm => this m (h4.mem_iff.2 (by simp [hm]))⟩
        · simp only [List.mem_cons, forall_eq_or_imp]
          refine ⟨?_, fun m hm => ht.sub m (h4.mem_iff.2 (by simp [hm]))⟩
          refine tok_of_perm h5 (by simp [h6]) ?_
          simp only [List.mem_cons, forall_eq_or_imp, ofList_key, key_mk, subnodes_mk, leaf_key,
            leaf_subnodes, List.not_mem_nil, false_implies, implies_true, and_true]
          refine ⟨?_, tok_empty _ _⟩
          have := ht.sub n (h4.mem_iff.2 (by simp))
          rw [h1] at this
          have h9 : (pre ++ c :: p) ++ a :: as = pre ++ (c :: p ++ a :: as) := by simp
          rw [h9]
          exact this

/-- Other keys keep their values when no protected path strictly extends the new key. -/
theorem setLoop_frame (lt : UInt8 → UInt8 → Bool) (v : Option V) (P : Bytes → Prop)
    (fuel : Nat) (k pre : Bytes) (l : HSList (Node V)) (hl : WF l) (ht : TOK P pre l)
    (hP : ∀ a as, ¬ P (pre ++ k ++ a :: as)) (k' : Bytes) (hk' : k' ≠ k) :
    listLk (setLoop lt v [] fuel k l).1.items k' = listLk l.items k' := by
  induction fuel generalizing k pre l k' with
  | zero => cases k <;> rfl
  | succ fuel ih =>
    cases k with
    | nil => rfl
    | cons c cs =>
      have hwf := (setLoop_wf lt v (fuel + 1) (c :: cs) l hl).heads
      cases set_step lt v fuel c cs l with
      | fresh h1 h2 h3 _ =>
        rw [listLk_perm h2 hwf, listLk_cons]
        split
        · rename_i hh
          simp at hh
          rw [listLk_none (by rw [← hh]; exact h1), nodeLk_eq]
          simp [hk', listLk]
        · rfl
      | both n r h1 h2 h3 h4 _ =>
        rw [listLk_perm h3 hwf, listLk_perm h2 hl.heads]
        refine listLk_replace rfl fun _ => ?_
        rw [nodeLk_eq, nodeLk_eq]
        simp only [key_mk, data_mk, sub_mk]
        have hk'' : ¬ k' = n.key := by rw [h1]; exact hk'
        rw [if_neg hk'', if_neg hk'']
      | prefixed n r a as h1 h2 h3 h4 _ =>
        cases hlt : l.tailSet with
        | false =>
          exfalso
          have := ht.top hlt n (h2.mem_iff.2 (by simp))
          rw [h1] at this
          exact hP a as (by simpa using this)
        | true =>
          rw [hlt] at h3
          simp only [if_true] at h3
          rw [listLk_perm h3 hwf, listLk_perm h2 hl.heads]
          refine listLk_replace (by simp [h1]) fun _ => ?_
          · obtain ⟨key, d, s, t⟩ := n
            simp only [key_mk] at h1
            subst h1
            by_cases hp : (c :: cs) <+: k'
            · obtain ⟨q, rfl⟩ := hp
              rw [nodeLk_append _ _ _ _ _ _ (by simp), nodeLk_eq]
              simp only [key_mk, sub_mk]
              rw [if_neg hk', if_pos (List.prefix_append _ _)]
              simp only [List.drop_left, data_mk, tail_mk, listLk_cons, key_mk, List.head?_cons]
              split
              · rfl
              · rename_i hne
                rw [nodeLk_eq]
                simp only [key_mk]
                rw [if_neg (by rintro rfl; simp at hne), if_neg, listLk]
                intro hpre
                obtain ⟨z, rfl⟩ := hpre
                simp at hne
            · rw [nodeLk_not_prefix _ _ _ _ _ _ hp, nodeLk_eq]
              simp only [key_mk]
              rw [if_neg hk', if_neg hp]
      | deeper n r a as h1 h2 h3 h4 h5 _ =>
        have hs := perm_wf_sub hl h3
        rw [listLk_perm h4 hwf, listLk_perm h3 hl.heads]
        refine listLk_replace rfl fun _ => ?_
        · rw [nodeLk_eq, nodeLk_eq]
          simp only [ofList_key, ofList_data, ofList_sub]
          split
          · rfl
          · split
            · rename_i hpre
              obtain ⟨q, rfl⟩ := hpre
              simp only [List.drop_left]
              refine ih (a :: as) (pre ++ n.key) n.subnodes hs.1
                (ht.sub n (h3.mem_iff.2 (by simp))) ?_ q ?_
              · intro x xs hx
                apply hP x xs
                rw [h1]
                simpa using hx
              · rintro rfl
                exact hk' h1.symm
            · rfl
      | split n r p a b as bs subs h1 h2 h3 h4 h5 h6 h7 h8 _ =>
        have hsub : Heads [Node.mk (a :: as) n.data n.sub n.tail, Node.leaf (b :: bs) v] := by
          simp [Heads]; exact h3
        rw [listLk_perm h7 hwf, listLk_perm h4 hl.heads]
        refine listLk_replace (by simp [h1]) fun _ => ?_
        · obtain ⟨key, d, s, t⟩ := n
          simp only [key_mk] at h1
          subst h1
          by_cases hp : (c :: p) <+: k'
          · obtain ⟨q, rfl⟩ := hp
            rw [nodeLk_append _ _ _ _ _ _ (by simp), nodeLk_eq]
            simp only [ofList_key, ofList_data, ofList_sub]
            rw [if_pos (List.prefix_append _ _), List.drop_left,
              listLk_perm h5 (heads_perm h5.symm hsub)]
            cases q with
            | nil => simp [nodeLk_eq]
            | cons y ys =>
              simp only [List.cons_append, data_mk, tail_mk, sub_mk]
              rw [if_neg (by intro h; simpa using congrArg List.length h)]
              simp only [listLk_cons, key_mk, List.head?_cons, leaf_key]
              split
              · rfl
              · rename_i hya
                have hya : a ≠ y := by simpa using hya
                have h9 : nodeLk (Node.mk (a :: as) d s t) (y :: ys) = none := by
                  rw [nodeLk_eq]
                  simp only [key_mk]
                  rw [if_neg (by simp; intro h; exact absurd h.symm hya),
                    if_neg (by simp; intro h; exact absurd h hya)]
                rw [h9]
                split
                · rw [nodeLk_eq]
                  simp only [leaf_key, leaf_data, leaf_sub]
                  rw [if_neg]
                  · simp [listLk]
                  · intro h
                    apply hk'
                    rw [h2, h]
                · simp [listLk]
          · rw [nodeLk_not_prefix _ _ _ _ _ _ hp, nodeLk_eq]
            simp only [ofList_key]
            rw [if_neg (by rintro rfl; exact hp (List.prefix_refl _)), if_neg hp]

end Comps.RTree
