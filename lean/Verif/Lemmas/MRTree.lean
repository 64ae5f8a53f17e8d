import Verif.Spec.MDict
import Verif.Lemmas.RTreeReach

/-!
# Lemmas about the multi-dictionary
-/

namespace Comps.MTree
open Comps.RTree Comps.Spec
variable {V : Type}

theorem flatL_append (a b : List (MVal V)) : flatL (a ++ b) = flatL a ++ flatL b := by
  induction a with
  | nil => simp [flatL]
  | cons x xs ih => simp [flatL, ih]

@[simp] theorem flatL_single (x : MVal V) : flatL [x] = flatV x := by simp [flatL]
@[simp] theorem flatV_one (v : V) : flatV (.one v) = [v] := by simp [flatV]
@[simp] theorem flatV_nested (l : List (MVal V)) : flatV (.nested l) = flatL l := by simp [flatV]

/-- Objects found under a key, in order. -/
def flk (l : List (MNode V)) (k : Bytes) : List V := flatL ((listLk l k).getD [])

/-- Objects found in a node. -/
def fnk (n : MNode V) (k : Bytes) : List V := flatL ((nodeLk n k).getD [])

/-- No node lies in a list without tail pointer. -/
abbrev Tailed (l : HSList (MNode V)) : Prop := TOK (fun _ => False) [] l

theorem tok_pre {l : HSList (MNode V)} {p q : Bytes} (h : TOK (fun _ => False) p l) :
    TOK (fun _ => False) q l := by
  induction h generalizing q with
  | mk p l h1 h2 ih => exact .mk q l h1 fun n hn => ih n hn

theorem tailed_iff {l : HSList (MNode V)} (h : TOK (fun _ => False) [] l) (hw : WF l) :
    l.tailSet = !l.items.isEmpty := by
  cases ht : l.tailSet with
  | true =>
    have := hw.tl ht
    cases hi : l.items with
    | nil => exact absurd hi this
    | cons _ _ => rfl
  | false =>
    cases hi : l.items with
    | nil => rfl
    | cons a as => exact (h.top ht a (by simp [hi])).elim

/-- The shapes of one step of `set`. -/
inductive MStep (v : List (MVal V)) (fuel : Nat) (c : UInt8) (cs : Bytes) (l l' : HSList (MNode V)) : Prop
  | fresh : (∀ n ∈ l.items, n.key.head? ≠ some c) →
      l'.items.Perm (Node.leaf (c :: cs) (some v) :: (if l.tailSet then l.items else [])) →
      l'.tailSet = true → MStep v fuel c cs l l'
  | both (n : MNode V) (r : List (MNode V)) : n.key = c :: cs → l.items.Perm (n :: r) →
      l'.items.Perm (Node.mk n.key (some (n.data.getD [] ++ v)) n.sub n.tail :: r) →
      l'.tailSet = l.tailSet → MStep v fuel c cs l l'
  | prefixed (n : MNode V) (r : List (MNode V)) (a : UInt8) (as : Bytes) :
      n.key = (c :: cs) ++ a :: as → l.items.Perm (n :: r) →
      (l'.items.Perm (Node.mk (c :: cs) (some v) [Node.mk (a :: as) n.data n.sub n.tail] true ::
        (if l.tailSet then r else []))) → l'.tailSet = true → MStep v fuel c cs l l'
  | deeper (n : MNode V) (r : List (MNode V)) (a : UInt8) (as : Bytes) :
      c :: cs = n.key ++ a :: as → n.key.head? = some c → l.items.Perm (n :: r) →
      l'.items.Perm (Node.ofList n.key n.data (setLoop v fuel (a :: as) n.subnodes) :: r) →
      l'.tailSet = l.tailSet → MStep v fuel c cs l l'
  | split (n : MNode V) (r : List (MNode V)) (p : Bytes) (a b : UInt8) (as bs : Bytes)
      (subs : HSList (MNode V)) :
      n.key = c :: p ++ a :: as → c :: cs = c :: p ++ b :: bs → a ≠ b → l.items.Perm (n :: r) →
      subs.items.Perm [Node.mk (a :: as) (some [.nested (n.data.getD [])]) n.sub n.tail,
        Node.leaf (b :: bs) (some v)] →
      subs.tailSet = true →
      l'.items.Perm (Node.ofList (c :: p) (some []) subs :: r) →
      l'.tailSet = l.tailSet → MStep v fuel c cs l l'

theorem set_step (v : List (MVal V)) (fuel : Nat) (c : UInt8) (cs : Bytes) (l : HSList (MNode V)) :
    MStep v fuel c cs l (setLoop v (fuel + 1) (c :: cs) l) := by
  simp only [setLoop]
  cases hfd : findAt c l.items with
  | none =>
    refine .fresh (findAt_none hfd) ?_ ?_
    · simp only [HSList.append]
      cases ht : l.tailSet with
      | false => simp
      | true => exact List.perm_append_singleton _ _
    · simp only [HSList.append]; split <;> rfl
  | some r =>
    obtain ⟨i, n⟩ := r
    obtain ⟨pre, post, hitems, hi, hh⟩ := findAt_some hfd
    subst hi
    have hm := matchKey_spec cs hh
    have hp : l.items.Perm (n :: (pre ++ post)) := hitems ▸ perm_mid pre post n
    have hset : ∀ n', (l.setAt pre.length n').items.Perm (n' :: (pre ++ post)) := by
      intro n'
      simp only [HSList.setAt, hitems, set_mid]
      exact perm_mid _ _ _
    simp only
    cases hmk : matchKey n.key (c :: cs) with
    | both y =>
      simp only [hmk] at hm ⊢
      exact .both n _ hm hp (hset _) rfl
    | keyEnds y =>
      simp only [hmk] at hm ⊢
      obtain ⟨⟨a, as, h1⟩, rfl⟩ := hm
      refine .prefixed n (pre ++ post) a as h1 hp ?_ ?_
      · have hd : n.key.drop (c :: cs).length = a :: as := by rw [h1]; simp
        rw [hd]
        simp only [HSList.append, HSList.removeAt, hitems, eraseIdx_mid]
        cases ht : l.tailSet with
        | false => simp
        | true =>
          cases hr : pre ++ post with
          | nil => simp
          | cons m ms => exact List.perm_append_singleton _ (m :: ms)
      · simp only [HSList.append]; split <;> rfl
    | nodeEnds y =>
      simp only [hmk] at hm ⊢
      obtain ⟨⟨a, as, h1⟩, rfl⟩ := hm
      have hd : (c :: cs).drop n.key.length = a :: as := by rw [h1]; simp
      rw [hd]
      exact .deeper n (pre ++ post) a as h1 hh hp (hset _) rfl
    | differ y =>
      simp only [hmk] at hm ⊢
      obtain ⟨p, a, as, b, bs, h1, h2, h3, rfl⟩ := hm
      have hd1 : (c :: cs).drop (c :: p).length = b :: bs := by rw [h2]; simp
      have hd2 : n.key.drop (c :: p).length = a :: as := by rw [h1]; simp
      have hd3 : n.key.take (c :: p).length = c :: p := by rw [h1]; simp
      rw [hd1, hd2, hd3]
      refine .split n (pre ++ post) p a b as bs _ h1 h2 h3 hp ?_ ?_ (hset _) rfl
      · split
        · simp [HSList.append, HSList.empty]
        · simp [HSList.append, HSList.empty]; exact List.Perm.swap _ _ _
      · split <;> simp [HSList.append, HSList.empty]

theorem setLoop_wf (v : List (MVal V)) (fuel : Nat) (k : Bytes) (l : HSList (MNode V)) (hl : WF l) :
    WF (setLoop v fuel k l) := by
  induction fuel generalizing k l with
  | zero => cases k <;> exact hl
  | succ fuel ih =>
    cases k with
    | nil => exact hl
    | cons c cs =>
      cases set_step v fuel c cs l with
      | fresh h1 h2 h3 =>
        refine wf_of_perm h2 ?_ (by simp) ?_
        · rw [heads_cons]
          cases l.tailSet with
          | true => exact ⟨by simp, fun m hm h => h1 m hm h.symm, hl.heads⟩
          | false => exact ⟨by simp, by simp, by simp [Heads]⟩
        · simp only [List.mem_cons, forall_eq_or_imp]
          refine ⟨wf_empty, ?_⟩
          cases l.tailSet with
          | true => exact hl.sub
          | false => simp
      | both n r h1 h2 h3 h4 =>
        have hs := perm_wf_sub hl h2
        refine wf_of_perm h3 (heads_replace (heads_perm h2 hl.heads) (by simp [h1]) rfl) (by simp) ?_
        simp only [List.mem_cons, forall_eq_or_imp]
        exact hs
      | prefixed n r a as h1 h2 h3 h4 =>
        have hs := perm_wf_sub hl h2
        have hh := heads_perm h2 hl.heads
        have hmoved : WF (⟨[Node.mk (a :: as) n.data n.sub n.tail], true⟩ : HSList (MNode V)) := by
          refine wf_of (by simp [Heads]) (by simp) ?_
          simp; exact hs.1
        refine wf_of_perm h3 ?_ (by simp) ?_
        · cases l.tailSet with
          | true => exact heads_replace hh (by simp) (by simp [h1])
          | false => simp [Heads]
        · cases l.tailSet with
          | true => simp only [if_true, List.mem_cons, forall_eq_or_imp]; exact ⟨hmoved, hs.2⟩
          | false => simpa using hmoved
      | deeper n r a as h1 h2 h3 h4 h5 =>
        have hs := perm_wf_sub hl h3
        have hh := heads_perm h3 hl.heads
        have hne : n.key ≠ [] := by rw [heads_cons] at hh; exact hh.1
        refine wf_of_perm h4 (heads_replace hh hne rfl) (by simp) ?_
        simp only [List.mem_cons, forall_eq_or_imp]
        exact ⟨ih _ _ hs.1, hs.2⟩
      | split n r p a b as bs subs h1 h2 h3 h4 h5 h6 h7 h8 =>
        have hs := perm_wf_sub hl h4
        have hh := heads_perm h4 hl.heads
        have hsubs : WF subs := by
          refine wf_of_perm h5 ?_ (by simp) ?_
          · simp [Heads]; exact h3
          · simp; exact ⟨hs.1, wf_empty⟩
        refine wf_of_perm h7 (heads_replace hh (by simp) (by simp [h1])) (by simp) ?_
        simp only [List.mem_cons, forall_eq_or_imp]
        exact ⟨hsubs, hs.2⟩

theorem tailed_of {l : HSList (MNode V)} {r : List (MNode V)} (hp : l.items.Perm r)
    (h1 : l.tailSet = true ∨ r = []) (h2 : ∀ n ∈ r, Tailed n.subnodes) : Tailed l := by
  refine tok_of_perm hp ?_ fun n hn => tok_pre (h2 n hn)
  intro ht n hn
  rcases h1 with h1 | rfl
  · rw [h1] at ht; simp at ht
  · simp at hn

theorem tailed_perm {l : HSList (MNode V)} (ht : Tailed l) {n : MNode V} {r : List (MNode V)}
    (hp : l.items.Perm (n :: r)) :
    l.tailSet = true ∧ Tailed n.subnodes ∧ ∀ m ∈ r, Tailed m.subnodes := by
  have hn : n ∈ l.items := hp.mem_iff.2 (by simp)
  refine ⟨?_, tok_pre (ht.sub n hn), fun m hm => tok_pre (ht.sub m (hp.mem_iff.2 (by simp [hm])))⟩
  cases h : l.tailSet with
  | true => rfl
  | false => exact (ht.top h n hn).elim

theorem setLoop_tailed (v : List (MVal V)) (fuel : Nat) (k : Bytes) (l : HSList (MNode V)) (ht : Tailed l) :
    Tailed (setLoop v fuel k l) := by
  induction fuel generalizing k l with
  | zero => cases k <;> exact ht
  | succ fuel ih =>
    cases k with
    | nil => exact ht
    | cons c cs =>
      cases set_step v fuel c cs l with
      | fresh h1 h2 h3 =>
        refine tailed_of h2 (.inl h3) ?_
        simp only [List.mem_cons, forall_eq_or_imp]
        refine ⟨tok_empty _ _, ?_⟩
        cases l.tailSet with
        | true => exact fun n hn => tok_pre (ht.sub n hn)
        | false => simp
      | both n r h1 h2 h3 h4 =>
        obtain ⟨t1, t2, t3⟩ := tailed_perm ht h2
        refine tailed_of h3 (.inl (h4.trans t1)) ?_
        simp only [List.mem_cons, forall_eq_or_imp]
        exact ⟨t2, t3⟩
      | prefixed n r a as h1 h2 h3 h4 =>
        obtain ⟨t1, t2, t3⟩ := tailed_perm ht h2
        refine tailed_of h3 (.inl h4) ?_
        simp only [t1, if_true, List.mem_cons, forall_eq_or_imp]
        refine ⟨tailed_of (List.Perm.refl _) (.inl rfl) ?_, t3⟩
        simp; exact t2
      | deeper n r a as h1 h2 h3 h4 h5 =>
        obtain ⟨t1, t2, t3⟩ := tailed_perm ht h3
        refine tailed_of h4 (.inl (h5.trans t1)) ?_
        simp only [List.mem_cons, forall_eq_or_imp]
        exact ⟨ih _ _ t2, t3⟩
      | split n r p a b as bs subs h1 h2 h3 h4 h5 h6 h7 h8 =>
        obtain ⟨t1, t2, t3⟩ := tailed_perm ht h4
        refine tailed_of h7 (.inl (h8.trans t1)) ?_
        simp only [List.mem_cons, forall_eq_or_imp]
        refine ⟨tailed_of h5 (.inl h6) ?_, t3⟩
        simp; exact ⟨t2, tok_empty _ _⟩

theorem flk_perm {l l' : List (MNode V)} (h : l.Perm l') (hl : Heads l) (k : Bytes) :
    flk l k = flk l' k := by rw [flk, listLk_perm h hl]; rfl

theorem flk_cons (n : MNode V) (r : List (MNode V)) (k : Bytes) :
    flk (n :: r) k = if n.key.head? = k.head? then fnk n k else flk r k := by
  rw [flk, listLk_cons]; split <;> rfl

theorem flk_none {l : List (MNode V)} {k : Bytes} (h : ∀ n ∈ l, n.key.head? ≠ k.head?) :
    flk l k = [] := by rw [flk, listLk_none h]; rfl

theorem fnk_eq (n : MNode V) (k : Bytes) :
    fnk n k = if k = n.key then flatL (n.data.getD [])
      else if n.key <+: k then flk n.sub (k.drop n.key.length) else [] := by
  rw [fnk, nodeLk_eq]
  split
  · rfl
  · split <;> rfl

theorem flk_nil (k : Bytes) : flk ([] : List (MNode V)) k = [] := by simp [flk, listLk, flatL]

/-- Moving a node to a deeper place: its key loses the prefix `p`. -/
theorem fnk_append (p q : Bytes) (d : Option (List (MVal V))) (s t) (r : Bytes) (hq : q ≠ []) :
    fnk (.mk (p ++ q) d s t) (p ++ r) = fnk (.mk q d s t) r := by
  rw [fnk, nodeLk_append _ _ _ _ _ _ hq]; rfl

theorem fnk_not_prefix (p q : Bytes) (d : Option (List (MVal V))) (s t) (k : Bytes) (h : ¬ p <+: k) :
    fnk (.mk (p ++ q) d s t) k = [] := by
  rw [fnk, nodeLk_not_prefix _ _ _ _ _ _ h]; rfl

/-- A node in which no searched key can start. -/
theorem fnk_head {n : MNode V} {k : Bytes} (hne : n.key ≠ []) (h : n.key.head? ≠ k.head?) :
    fnk n k = [] := by
  rw [fnk_eq, if_neg (by rintro rfl; exact h rfl), if_neg]
  intro hp
  exact h (head_of_prefix hne hp)

theorem flk_single {n : MNode V} {k : Bytes} (hne : n.key ≠ []) : flk [n] k = fnk n k := by
  rw [flk_cons]
  split
  · rfl
  · rename_i h; rw [flk_nil, fnk_head hne h]

/-- Effect of one write on every key. -/
theorem setLoop_flk (v : List (MVal V)) (fuel : Nat) (k : Bytes) (l : HSList (MNode V)) (hl : WF l)
    (ht : Tailed l) (hk : k ≠ []) (hf : k.length ≤ fuel) (k' : Bytes) :
    flk (setLoop v fuel k l).items k' =
      if k' = k then flk l.items k ++ flatL v else flk l.items k' := by
  induction fuel generalizing k l k' with
  | zero => cases k <;> simp_all
  | succ fuel ih =>
    cases k with
    | nil => simp at hk
    | cons c cs =>
      have hwf := (setLoop_wf v (fuel + 1) (c :: cs) l hl).heads
      have replace : ∀ (n n' : MNode V) (r : List (MNode V)), l.items.Perm (n :: r) →
          (setLoop v (fuel + 1) (c :: cs) l).items.Perm (n' :: r) → n.key ≠ [] →
          n'.key.head? = n.key.head? → n.key.head? = some c →
          (∀ q, fnk n' q = if q = c :: cs then fnk n q ++ flatL v else fnk n q) →
          flk (setLoop v (fuel + 1) (c :: cs) l).items k' =
            if k' = c :: cs then flk l.items (c :: cs) ++ flatL v else flk l.items k' := by
        intro n n' r p1 p2 hne hh hc hq
        rw [flk_perm p2 hwf, flk_perm p1 hl.heads, flk_perm p1 hl.heads, flk_cons, flk_cons,
          flk_cons, hh, hc]
        simp only [List.head?_cons, if_true]
        by_cases hk' : some c = k'.head?
        · rw [if_pos hk', if_pos hk', hq]
          by_cases e : k' = c :: cs
          · rw [if_pos e, if_pos e, e]
          · rw [if_neg e, if_neg e]
        · rw [if_neg hk', if_neg hk', if_neg (by rintro rfl; exact hk' rfl)]
      cases set_step v fuel c cs l with
      | fresh h1 h2 h3 =>
        have hitems : (if l.tailSet then l.items else []) = l.items := by
          have := tailed_iff ht hl
          cases hts : l.tailSet with
          | true => simp
          | false =>
            rw [hts] at this
            have : l.items = [] := by simpa using this
            simp [this]
        rw [hitems] at h2
        rw [flk_perm h2 hwf, flk_cons]
        by_cases e : k' = c :: cs
        · subst e
          rw [if_pos rfl, if_pos (by simp), flk_none (k := c :: cs) h1, fnk_eq]
          simp
        · rw [if_neg e]
          by_cases hh : (Node.leaf (c :: cs) (some v) : MNode V).key.head? = k'.head?
          · rw [if_pos hh, fnk_eq]
            simp only [leaf_key, leaf_sub]
            rw [if_neg e, flk_none (l := l.items) (by rw [← hh]; exact h1)]
            split <;> simp [flk_nil]
          · rw [if_neg hh]
      | both n r h1 h2 h3 h4 =>
        refine replace n _ r h2 h3 (by simp [h1]) rfl (by simp [h1]) fun q => ?_
        rw [fnk_eq, fnk_eq]
        simp only [key_mk, data_mk, sub_mk, h1, Option.getD_some]
        by_cases e : q = c :: cs
        · simp [e, flatL_append]
        · simp [e]
      | prefixed n r a as h1 h2 h3 h4 =>
        obtain ⟨t1, -, -⟩ := tailed_perm ht h2
        rw [t1] at h3
        simp only [if_true] at h3
        refine replace n _ r h2 h3 (by simp [h1]) (by simp [h1]) (by simp [h1]) fun q => ?_
        obtain ⟨key, d, s, t⟩ := n
        simp only [key_mk] at h1
        subst h1
        rw [fnk_eq]
        simp only [key_mk, data_mk, sub_mk, tail_mk, Option.getD_some]
        by_cases hp : (c :: cs) <+: q
        · obtain ⟨w, rfl⟩ := hp
          rw [fnk_append _ _ _ _ _ _ (by simp), if_pos (List.prefix_append _ _), List.drop_left,
            flk_single (by simp)]
          by_cases e : w = []
          · subst e
            simp only [List.append_nil, if_true]
            rw [fnk_eq]
            simp
          · have : ¬ (c :: cs ++ w = c :: cs) := by simpa using e
            rw [if_neg this, if_neg this]
        · rw [fnk_not_prefix _ _ _ _ _ _ hp, if_neg hp]
          have : ¬ q = c :: cs := by rintro rfl; exact hp (List.prefix_refl _)
          rw [if_neg this, if_neg this]
      | deeper n r a as h1 h2 h3 h4 h5 =>
        have hs := perm_wf_sub hl h3
        obtain ⟨-, t2, -⟩ := tailed_perm ht h3
        have hne : n.key ≠ [] := hl.ne n (h3.mem_iff.2 (by simp))
        refine replace n _ r h3 h4 hne rfl h2 fun q => ?_
        rw [fnk_eq, fnk_eq]
        simp only [ofList_key, ofList_data, ofList_sub]
        by_cases e1 : q = n.key
        · rw [if_pos e1, if_neg]
          · rw [if_pos e1]
          · rw [e1, h1]; intro h; simpa using congrArg List.length h
        · rw [if_neg e1, if_neg e1]
          by_cases hp : n.key <+: q
          · obtain ⟨w, rfl⟩ := hp
            rw [if_pos (List.prefix_append _ _), if_pos (List.prefix_append _ _), List.drop_left,
              ih (a :: as) n.subnodes hs.1 t2 (by simp) (by
                have hlen := congrArg List.length h1
                have : 0 < n.key.length := List.length_pos_iff.2 hne
                simp only [List.length_append, List.length_cons] at hlen hf ⊢
                omega) w, h1]
            by_cases e : w = a :: as
            · subst e; simp
            · have e' : ¬ (n.key ++ w = n.key ++ a :: as) := by simpa using e
              rw [if_neg e, if_neg e']; rfl
          · rw [if_neg hp, if_neg hp, if_neg]
            rintro rfl
            exact hp (by rw [h1]; simp)
      | split n r p a b as bs subs h1 h2 h3 h4 h5 h6 h7 h8 =>
        have hsub : Heads [Node.mk (a :: as) (some [MVal.nested (n.data.getD [])]) n.sub n.tail,
            Node.leaf (b :: bs) (some v)] := by
          simp [Heads]; exact h3
        refine replace n _ r h4 h7 (by simp [h1]) (by simp [h1]) (by simp [h1]) fun q => ?_
        obtain ⟨key, d, s, t⟩ := n
        simp only [key_mk] at h1
        subst h1
        rw [fnk_eq]
        simp only [ofList_key, ofList_data, ofList_sub, Option.getD_some]
        by_cases hp : (c :: p) <+: q
        · obtain ⟨w, rfl⟩ := hp
          rw [fnk_append _ _ _ _ _ _ (by simp), if_pos (List.prefix_append _ _), List.drop_left,
            flk_perm h5 (heads_perm h5.symm hsub), h2]
          simp only [data_mk, sub_mk, tail_mk, List.append_cancel_left_eq]
          cases w with
          | nil =>
            simp only [List.append_nil, if_true]
            rw [if_neg (by simp), fnk_eq]
            simp [flatL]
          | cons y ys =>
            rw [if_neg (by intro h; simpa using congrArg List.length h), flk_cons]
            simp only [key_mk, List.head?_cons]
            by_cases hya : a = y
            · subst hya
              rw [if_pos rfl, if_neg (by intro h; simp at h; exact h3 h.1), fnk_eq, fnk_eq]
              simp
            · rw [if_neg (by simpa using hya), flk_single (by simp),
                fnk_head (n := Node.mk (a :: as) d s t) (by simp) (by simpa using hya), fnk_eq]
              simp only [leaf_key, leaf_data, leaf_sub, Option.getD_some]
              by_cases e : y :: ys = b :: bs
              · simp [e]
              · rw [if_neg e, if_neg e]; split <;> simp [flk_nil]
        · rw [fnk_not_prefix _ _ _ _ _ _ hp, if_neg hp]
          have e1 : ¬ q = c :: p := by rintro rfl; exact hp (List.prefix_refl _)
          have e2 : ¬ q = c :: cs := by rintro rfl; exact hp (by rw [h2]; simp)
          rw [if_neg e1, if_neg e2]

/-! ## Every node carries a value list -/

/-- Every node has a value list. -/
abbrev Full (l : HSList (MNode V)) : Prop := AllN (fun _ d => d.isSome = true) [] l

theorem full_pre {l : HSList (MNode V)} {p q : Bytes}
    (h : AllN (fun _ d => d.isSome = true) p l) : AllN (fun _ d => d.isSome = true) q l := by
  induction h generalizing q with
  | mk p l h1 h2 ih => exact .mk q l h1 fun n hn => ih n hn

theorem full_of {l : HSList (MNode V)} {r : List (MNode V)} (hp : l.items.Perm r)
    (h : ∀ n ∈ r, n.data.isSome = true ∧ Full n.subnodes) : Full l :=
  alln_of_perm hp (fun n hn => (h n hn).1) fun n hn => full_pre (h n hn).2

theorem full_perm {l : HSList (MNode V)} (h : Full l) {r : List (MNode V)}
    (hp : l.items.Perm r) : ∀ n ∈ r, n.data.isSome = true ∧ Full n.subnodes :=
  fun n hn => ⟨h.top n (hp.mem_iff.2 hn), full_pre (h.sub n (hp.mem_iff.2 hn))⟩

theorem setLoop_full (v : List (MVal V)) (fuel : Nat) (k : Bytes) (l : HSList (MNode V)) (h : Full l) :
    Full (setLoop v fuel k l) := by
  induction fuel generalizing k l with
  | zero => cases k <;> exact h
  | succ fuel ih =>
    cases k with
    | nil => exact h
    | cons c cs =>
      cases set_step v fuel c cs l with
      | fresh h1 h2 h3 =>
        refine full_of h2 ?_
        simp only [List.mem_cons, forall_eq_or_imp]
        refine ⟨⟨rfl, alln_empty _ _⟩, ?_⟩
        cases l.tailSet with
        | true => exact full_perm h (List.Perm.refl _)
        | false => simp
      | both n r h1 h2 h3 h4 =>
        have := full_perm h h2
        simp only [List.mem_cons, forall_eq_or_imp] at this
        refine full_of h3 ?_
        simp only [List.mem_cons, forall_eq_or_imp]
        exact ⟨⟨rfl, this.1.2⟩, this.2⟩
      | prefixed n r a as h1 h2 h3 h4 =>
        have := full_perm h h2
        simp only [List.mem_cons, forall_eq_or_imp] at this
        refine full_of h3 ?_
        simp only [List.mem_cons, forall_eq_or_imp]
        refine ⟨⟨rfl, full_of (List.Perm.refl _) ?_⟩, ?_⟩
        · simp; exact this.1
        · cases l.tailSet with
          | true => exact this.2
          | false => simp
      | deeper n r a as h1 h2 h3 h4 h5 =>
        have := full_perm h h3
        simp only [List.mem_cons, forall_eq_or_imp] at this
        refine full_of h4 ?_
        simp only [List.mem_cons, forall_eq_or_imp]
        exact ⟨⟨this.1.1, ih _ _ this.1.2⟩, this.2⟩
      | split n r p a b as bs subs h1 h2 h3 h4 h5 h6 h7 h8 =>
        have := full_perm h h4
        simp only [List.mem_cons, forall_eq_or_imp] at this
        refine full_of h7 ?_
        simp only [List.mem_cons, forall_eq_or_imp]
        refine ⟨⟨rfl, full_of h5 ?_⟩, this.2⟩
        simp; exact ⟨this.1.2, alln_empty _ _⟩

/-! ## Writes that split no node -/

/-- If `k` leaves a stored key inside, the common part is stored. -/
def NoSplit (l : List (MNode V)) (k : Bytes) : Prop :=
  ∀ p a b as bs, k = p ++ b :: bs → p ≠ [] → a ≠ b → (listLk l (p ++ a :: as)).isSome = true →
    (listLk l p).isSome = true

theorem listLk_head {l : HSList (MNode V)} {n : MNode V} {r : List (MNode V)} (hl : WF l)
    (hp : l.items.Perm (n :: r)) {k : Bytes} (h : n.key.head? = k.head?) :
    listLk l.items k = nodeLk n k := by
  rw [listLk_perm hp hl.heads, listLk_cons, if_pos h]

theorem head_append {a b : Bytes} (h : a ≠ []) : (a ++ b).head? = a.head? := by
  cases a <;> simp_all

theorem setLoop_lk (v : List (MVal V)) (fuel : Nat) (k : Bytes) (l : HSList (MNode V)) (hl : WF l)
    (ht : Tailed l) (hd : Full l) (hk : k ≠ []) (hf : k.length ≤ fuel) (hn : NoSplit l.items k)
    (k' : Bytes) :
    listLk (setLoop v fuel k l).items k' =
      if k' = k then some ((listLk l.items k).getD [] ++ v) else listLk l.items k' := by
  induction fuel generalizing k l k' with
  | zero => cases k <;> simp_all
  | succ fuel ih =>
    cases k with
    | nil => simp at hk
    | cons c cs =>
      have hwf := (setLoop_wf v (fuel + 1) (c :: cs) l hl).heads
      have replace : ∀ (n n' : MNode V) (r : List (MNode V)), l.items.Perm (n :: r) →
          (setLoop v (fuel + 1) (c :: cs) l).items.Perm (n' :: r) → n.key ≠ [] →
          n'.key.head? = n.key.head? → n.key.head? = some c →
          (∀ q, nodeLk n' q =
            if q = c :: cs then some ((nodeLk n q).getD [] ++ v) else nodeLk n q) →
          listLk (setLoop v (fuel + 1) (c :: cs) l).items k' =
            if k' = c :: cs then some ((listLk l.items (c :: cs)).getD [] ++ v)
            else listLk l.items k' := by
        intro n n' r p1 p2 hne hh hc hq
        rw [listLk_perm p2 hwf, listLk_perm p1 hl.heads, listLk_perm p1 hl.heads, listLk_cons,
          listLk_cons, listLk_cons, hh, hc]
        simp only [List.head?_cons, if_true]
        by_cases hk' : some c = k'.head?
        · rw [if_pos hk', if_pos hk', hq]
          by_cases e : k' = c :: cs
          · rw [if_pos e, if_pos e, e]
          · rw [if_neg e, if_neg e]
        · rw [if_neg hk', if_neg hk', if_neg (by rintro rfl; exact hk' rfl)]
      cases set_step v fuel c cs l with
      | fresh h1 h2 h3 =>
        have hitems : (if l.tailSet then l.items else []) = l.items := by
          have := tailed_iff ht hl
          cases hts : l.tailSet with
          | true => simp
          | false =>
            rw [hts] at this
            have : l.items = [] := by simpa using this
            simp [this]
        rw [hitems] at h2
        rw [listLk_perm h2 hwf, listLk_cons]
        by_cases e : k' = c :: cs
        · subst e
          rw [if_pos rfl, if_pos (by simp), listLk_none (k := c :: cs) h1, nodeLk_eq]
          simp
        · rw [if_neg e]
          by_cases hh : (Node.leaf (c :: cs) (some v) : MNode V).key.head? = k'.head?
          · rw [if_pos hh, nodeLk_eq]
            simp only [leaf_key, leaf_sub]
            rw [if_neg e, listLk_none (l := l.items) (by rw [← hh]; exact h1)]
            split <;> simp [listLk]
          · rw [if_neg hh]
      | both n r h1 h2 h3 h4 =>
        refine replace n _ r h2 h3 (by simp [h1]) rfl (by simp [h1]) fun q => ?_
        rw [nodeLk_eq, nodeLk_eq]
        simp only [key_mk, data_mk, sub_mk, h1]
        by_cases e : q = c :: cs
        · simp [e]
        · simp [e]
      | prefixed n r a as h1 h2 h3 h4 =>
        obtain ⟨t1, -, -⟩ := tailed_perm ht h2
        rw [t1] at h3
        simp only [if_true] at h3
        refine replace n _ r h2 h3 (by simp [h1]) (by simp [h1]) (by simp [h1]) fun q => ?_
        obtain ⟨key, d, s, t⟩ := n
        simp only [key_mk] at h1
        subst h1
        rw [nodeLk_eq]
        simp only [key_mk, data_mk, sub_mk, tail_mk]
        have single : ∀ w, listLk [Node.mk (a :: as) d s t] w = nodeLk (Node.mk (a :: as) d s t) w := by
          intro w
          rw [listLk_cons]
          split
          · rfl
          · rename_i hh
            rw [nodeLk_eq, if_neg (by rintro rfl; exact hh rfl), if_neg]
            · simp [listLk]
            · intro hp; exact hh (head_of_prefix (by simp) hp)
        by_cases hp : (c :: cs) <+: q
        · obtain ⟨w, rfl⟩ := hp
          rw [nodeLk_append _ _ _ _ _ _ (by simp), if_pos (List.prefix_append _ _), List.drop_left,
            single]
          by_cases e : w = []
          · subst e
            simp only [List.append_nil, if_true]
            rw [nodeLk_eq]
            simp
          · have : ¬ (c :: cs ++ w = c :: cs) := by simpa using e
            rw [if_neg this, if_neg this]
        · rw [nodeLk_not_prefix _ _ _ _ _ _ hp, if_neg hp]
          have : ¬ q = c :: cs := by rintro rfl; exact hp (List.prefix_refl _)
          rw [if_neg this, if_neg this]
      | deeper n r a as h1 h2 h3 h4 h5 =>
        have hs := perm_wf_sub hl h3
        obtain ⟨-, t2, -⟩ := tailed_perm ht h3
        have hfl := full_perm hd h3
        simp only [List.mem_cons, forall_eq_or_imp] at hfl
        have hne : n.key ≠ [] := hl.ne n (h3.mem_iff.2 (by simp))
        have below : ∀ w, w ≠ [] → listLk l.items (n.key ++ w) = listLk n.sub w := by
          intro w hw
          rw [listLk_head hl h3 (head_append hne).symm, nodeLk_eq,
            if_neg (by intro e; exact hw (by simpa using e)), if_pos (List.prefix_append _ _),
            List.drop_left]
        refine replace n _ r h3 h4 hne rfl h2 fun q => ?_
        rw [nodeLk_eq, nodeLk_eq]
        simp only [ofList_key, ofList_data, ofList_sub]
        by_cases e1 : q = n.key
        · rw [if_pos e1, if_neg]
          · rw [if_pos e1]
          · rw [e1, h1]; intro h; simpa using congrArg List.length h
        · rw [if_neg e1, if_neg e1]
          by_cases hp : n.key <+: q
          · obtain ⟨w, rfl⟩ := hp
            rw [if_pos (List.prefix_append _ _), if_pos (List.prefix_append _ _), List.drop_left,
              ih (a :: as) n.subnodes hs.1 t2 hfl.1.2 (by simp) (by
                have hlen := congrArg List.length h1
                have : 0 < n.key.length := List.length_pos_iff.2 hne
                simp only [List.length_append, List.length_cons] at hlen hf ⊢
                omega) (by
                intro p x y xs ys e hpe hxy hst
                have := hn (n.key ++ p) x y xs ys (by rw [h1, e]; simp) (by simp [hne]) hxy (by
                  rw [List.append_assoc, below _ (by simp)]; exact hst)
                rwa [below _ hpe] at this) w, h1]
            by_cases e : w = a :: as
            · subst e; simp
            · have e' : ¬ (n.key ++ w = n.key ++ a :: as) := by simpa using e
              rw [if_neg e, if_neg e']; rfl
          · rw [if_neg hp, if_neg hp, if_neg]
            rintro rfl
            exact hp (by rw [h1]; simp)
      | split n r p a b as bs subs h1 h2 h3 h4 h5 h6 h7 h8 =>
        exfalso
        have hfl := full_perm hd h4
        simp only [List.mem_cons, forall_eq_or_imp] at hfl
        have := hn (c :: p) a b as bs h2 (by simp) h3 (by
          rw [← h1, listLk_head hl h4 rfl, nodeLk_eq, if_pos rfl]; exact hfl.1.1)
        rw [listLk_head hl h4 (by rw [h1]; rfl), nodeLk_eq, if_neg, if_neg] at this
        · simp at this
        · rw [h1]; intro h
          have := h.length_le
          simp at this; omega
        · rw [h1]; intro h; simpa using congrArg List.length h

/-! ## Reading -/

theorem get_eq {t : MTree V} (h : WF t.subnodes) (k : Bytes) :
    get t k = listLk t.subnodes.items k := getLoop_eq _ _ _ h (Nat.le_refl _)

/-- What every multi-dictionary satisfies. -/
structure Ok (t : MTree V) : Prop where
  wf : WF t.subnodes
  tailed : Tailed t.subnodes
  full : Full t.subnodes

theorem ok_create : Ok (create : MTree V) := ⟨wf_empty, tok_empty _ _, alln_empty _ _⟩

theorem ok_setVal {t : MTree V} (h : Ok t) (k : Bytes) (v : MVal V) : Ok (setVal t k v) :=
  ⟨setLoop_wf _ _ _ _ h.wf, setLoop_tailed _ _ _ _ h.tailed, setLoop_full _ _ _ _ h.full⟩

theorem get_nil {t : MTree V} (h : Ok t) : get t [] = none := by
  rw [get_eq h.wf, listLk_nil_key h.wf.heads.1]

/-- The objects listed under a key. -/
theorem setVal_flat {t : MTree V} (h : Ok t) (k : Bytes) (hk : k ≠ []) (v : MVal V) (k' : Bytes) :
    flatL ((get (setVal t k v) k').getD []) =
      if k' = k then flatL ((get t k).getD []) ++ flatV v else flatL ((get t k').getD []) := by
  rw [get_eq (ok_setVal h k v).wf, get_eq h.wf, get_eq h.wf]
  have := setLoop_flk [v] _ k _ h.wf h.tailed hk (Nat.le_refl _) k'
  rw [show flatL [v] = flatV v from by simp [flatL]] at this
  exact this

/-! ## Removal -/

theorem unsetLoop_missing (fuel : Nat) (nested : Bool) (k : Bytes) (l : HSList (MNode V))
    (hl : WF l) (hf : k.length ≤ fuel) (h : unsetLoop fuel nested k l = .ok none) :
    listLk l.items k = none := by
  induction fuel generalizing nested k l with
  | zero => cases k <;> simp_all [listLk_nil_key hl.heads.1]
  | succ fuel ih =>
    cases k with
    | nil => exact listLk_nil_key hl.heads.1
    | cons c cs =>
      simp only [unsetLoop] at h
      cases hfd : findAt c l.items with
      | none => exact listLk_none (findAt_none hfd)
      | some r =>
        obtain ⟨i, n⟩ := r
        obtain ⟨pre, post, hitems, hi, hh⟩ := findAt_some hfd
        have hm := matchKey_spec cs hh
        have hp : l.items.Perm (n :: (pre ++ post)) := hitems ▸ perm_mid pre post n
        have hs := perm_wf_sub hl hp
        have hne := hl.ne n (hp.mem_iff.2 (by simp))
        simp only [hfd] at h
        rw [listLk_head hl hp (by rw [hh]; rfl), nodeLk_eq]
        cases hmk : matchKey n.key (c :: cs) with
        | both y =>
          simp only [hmk] at h
          have := ite_ok h
          simp at this
        | keyEnds y =>
          simp only [hmk] at h hm
          obtain ⟨⟨a, as, h1⟩, rfl⟩ := hm
          rw [if_neg, if_neg]
          · rw [h1]; intro h
            have := h.length_le
            simp at this; omega
          · rw [h1]; intro h; simpa using congrArg List.length h
        | nodeEnds y =>
          simp only [hmk] at h hm
          obtain ⟨⟨a, as, h1⟩, rfl⟩ := hm
          rw [h1, if_neg (by intro e; simp at e), if_pos (List.prefix_append _ _), List.drop_left]
          rw [h1, List.drop_left] at h
          split at h
          · simp at h
          · rename_i hx
            refine ih true _ n.subnodes hs.1 ?_ hx
            have hlen := congrArg List.length h1
            have : 0 < n.key.length := List.length_pos_iff.2 hne
            simp only [List.length_append, List.length_cons] at hlen hf ⊢
            omega
          · simp at h
        | differ y =>
          simp only [hmk] at h hm
          obtain ⟨p, a, as, b, bs, h1, h2, h3, rfl⟩ := hm
          rw [if_neg, if_neg]
          · rw [h1, h2, List.prefix_append_right_inj]
            intro h
            exact h3 (by simpa using List.cons_prefix_cons.1 h |>.1)
          · rw [h1, h2]; intro h; simp at h; exact h3 h.1.symm

theorem unsetLoop_found (fuel : Nat) (nested : Bool) (k : Bytes) (l s : HSList (MNode V)) (d : Nat)
    (hl : WF l) (ht : Tailed l) (hfl : Full l) (h : unsetLoop fuel nested k l = .ok (some (s, d))) :
    WF s ∧ Tailed s ∧ Full s ∧
    (∃ vs, listLk l.items k = some vs ∧ d = vs.length) ∧
    (listLk s.items k).getD [] = [] ∧
    ∀ k', k' ≠ k → listLk s.items k' = listLk l.items k' := by
  induction fuel generalizing nested k l s d with
  | zero => simp [unsetLoop] at h
  | succ fuel ih =>
    cases k with
    | nil => simp [unsetLoop] at h
    | cons c cs =>
      simp only [unsetLoop] at h
      cases hfd : findAt c l.items with
      | none => simp [hfd] at h
      | some r =>
        obtain ⟨i, n⟩ := r
        obtain ⟨pre, post, hitems, hi, hh⟩ := findAt_some hfd
        subst hi
        have hm := matchKey_spec cs hh
        have hp : l.items.Perm (n :: (pre ++ post)) := hitems ▸ perm_mid pre post n
        have hset : ∀ n', (l.setAt pre.length n').items.Perm (n' :: (pre ++ post)) := by
          intro n'
          simp only [HSList.setAt, hitems, set_mid]
          exact perm_mid _ _ _
        have hs := perm_wf_sub hl hp
        obtain ⟨t1, t2, t3⟩ := tailed_perm ht hp
        have hf := full_perm hfl hp
        simp only [List.mem_cons, forall_eq_or_imp] at hf
        have hheads := heads_perm hp hl.heads
        have hne : n.key ≠ [] := hl.ne n (hp.mem_iff.2 (by simp))
        simp only [hfd] at h
        cases hmk : matchKey n.key (c :: cs) with
        | keyEnds y => simp [hmk] at h
        | differ y => simp [hmk] at h
        | both y =>
          simp only [hmk] at h hm
          have hfound : listLk l.items (c :: cs) = n.data := by
            rw [listLk_head hl hp (by rw [hh]; rfl), nodeLk_eq, if_pos hm.symm]
          have h := Option.some.inj (ite_ok h)
          simp only [Prod.mk.injEq] at h
          obtain ⟨h, hd⟩ := h
          have hvs : ∃ vs, listLk l.items (c :: cs) = some vs ∧ d = vs.length := by
            obtain ⟨vs, hvs⟩ := Option.isSome_iff_exists.1 hf.1.1
            exact ⟨vs, by rw [hfound, hvs], by rw [hd, hvs]; rfl⟩
          cases hnt : n.tail with
          | true =>
            simp only [hnt, if_true] at h
            subst h
            have hps := hset (Node.mk n.key (some []) n.sub true)
            have hsh : Heads (Node.mk n.key (some []) n.sub true :: (pre ++ post)) :=
              heads_replace hheads hne (by simp)
            have hsub : (Node.mk n.key (some []) n.sub true).subnodes = n.subnodes := by
              simp [Node.subnodes, hnt]
            refine ⟨?_, ?_, ?_, hvs, ?_, ?_⟩
            · refine wf_of_perm hps hsh (by simp) ?_
              simp only [List.mem_cons, forall_eq_or_imp, hsub]
              exact hs
            · refine tailed_of hps (.inl t1) ?_
              simp only [List.mem_cons, forall_eq_or_imp, hsub]
              exact ⟨t2, t3⟩
            · refine full_of hps ?_
              simp only [List.mem_cons, forall_eq_or_imp, hsub]
              exact ⟨⟨rfl, hf.1.2⟩, hf.2⟩
            · rw [listLk_perm hps (heads_perm hps.symm hsh), listLk_cons, key_mk,
                if_pos (by simp [hm]), nodeLk_eq]
              simp [hm]
            · intro k' hk'
              rw [listLk_perm hps (heads_perm hps.symm hsh), listLk_perm hp hl.heads]
              refine listLk_replace (by simp) fun _ => ?_
              rw [nodeLk_eq, nodeLk_eq]
              simp only [key_mk, data_mk, sub_mk]
              have hk'' : ¬ k' = n.key := by rw [hm]; exact hk'
              rw [if_neg hk'', if_neg hk'']
          | false =>
            simp only [hnt, Bool.false_eq_true, if_false] at h
            have hps : s.items = pre ++ post := by
              rw [h]; simp only [HSList.removeAt, hitems, eraseIdx_mid]
            have hst : s.tailSet = !(pre ++ post).isEmpty ∨ s.tailSet = true ∧ (pre ++ post) ≠ [] := by
              rw [h]
              simp only [HSList.removeAt, hitems, eraseIdx_mid]
              cases hr : pre ++ post <;> simp [t1]
            have hh2 := heads_cons.1 hheads
            have hnosub : n.sub = [] := by
              have := tailed_iff t2 hs.1
              simp only [Node.subnodes, hnt] at this
              simpa using this
            refine ⟨?_, ?_, ?_, hvs, ?_, ?_⟩
            · refine wf_of (by rw [hps]; exact hh2.2.2) ?_ (by rw [hps]; exact hs.2)
              rw [hps]
              intro hh e
              rcases hst with hst | hst
              · rw [hst, e] at hh; simp at hh
              · exact hst.2 e
            · refine tailed_of (r := pre ++ post) (by rw [hps]) ?_ t3
              rcases hst with hst | hst
              · cases hr : pre ++ post with
                | nil => exact .inr rfl
                | cons x xs => rw [hr] at hst; exact .inl hst
              · exact .inl hst.1
            · exact full_of (r := pre ++ post) (by rw [hps]) hf.2
            · rw [hps, listLk_none]
              · rfl
              · intro m hm' e
                exact hh2.2.1 m hm' (by rw [hh, e]; rfl)
            · intro k' hk'
              rw [hps, listLk_perm hp hl.heads, listLk_cons]
              split
              · rename_i e
                rw [listLk_none (fun m hm' e' => hh2.2.1 m hm' (by rw [e, e'])), nodeLk_eq, if_neg (by
                  rw [hm]; exact hk'), hnosub]
                split <;> simp [listLk]
              · rfl
        | nodeEnds y =>
          simp only [hmk] at h hm
          obtain ⟨⟨a, as, h1⟩, rfl⟩ := hm
          rw [h1, List.drop_left] at h
          split at h
          · simp at h
          · simp at h
          · rename_i s' d' hx
            simp only [Except.ok.injEq, Option.some.injEq, Prod.mk.injEq] at h
            obtain ⟨rfl, rfl⟩ := h
            obtain ⟨i1, i2, i3, ⟨vs, i4, i5⟩, i6, i7⟩ := ih _ _ _ _ _ hs.1 t2 hf.1.2 hx
            have hps := hset (Node.ofList n.key n.data s')
            have hsh : Heads (Node.ofList n.key n.data s' :: (pre ++ post)) :=
              heads_replace hheads hne (by simp)
            have hlk : ∀ q, listLk (l.setAt pre.length (Node.ofList n.key n.data s')).items (n.key ++ q) =
                if q = [] then n.data else listLk s'.items q := by
              intro q
              rw [listLk_perm hps (heads_perm hps.symm hsh), listLk_cons, ofList_key,
                if_pos (head_append hne).symm, nodeLk_eq]
              simp only [ofList_key, ofList_data, ofList_sub]
              by_cases e : q = []
              · subst e; simp
              · rw [if_neg (by simpa using e), if_pos (List.prefix_append _ _), List.drop_left, if_neg e]
            have hlk0 : ∀ q, listLk l.items (n.key ++ q) =
                if q = [] then n.data else listLk n.sub q := by
              intro q
              rw [listLk_head hl hp (head_append hne).symm, nodeLk_eq]
              by_cases e : q = []
              · subst e; simp
              · rw [if_neg (by simpa using e), if_pos (List.prefix_append _ _), List.drop_left, if_neg e]
            refine ⟨?_, ?_, ?_, ?_, ?_, ?_⟩
            · refine wf_of_perm hps hsh (by simp) ?_
              simp only [List.mem_cons, forall_eq_or_imp]
              exact ⟨i1, hs.2⟩
            · refine tailed_of hps (.inl t1) ?_
              simp only [List.mem_cons, forall_eq_or_imp]
              exact ⟨i2, t3⟩
            · refine full_of hps ?_
              simp only [List.mem_cons, forall_eq_or_imp]
              exact ⟨⟨hf.1.1, i3⟩, hf.2⟩
            · refine ⟨vs, ?_, i5⟩
              rw [h1, hlk0, if_neg (by simp)]; exact i4
            · rw [h1, hlk, if_neg (by simp)]; exact i6
            · intro k' hk'
              by_cases hp' : n.key <+: k'
              · obtain ⟨q, rfl⟩ := hp'
                rw [hlk, hlk0]
                split
                · rfl
                · exact i7 q (by rintro rfl; exact hk' h1.symm)
              · rw [listLk_perm hps (heads_perm hps.symm hsh), listLk_perm hp hl.heads]
                refine listLk_replace (by simp) fun _ => ?_
                rw [nodeLk_eq, nodeLk_eq]
                simp only [ofList_key]
                have : ¬ k' = n.key := by rintro rfl; exact hp' (List.prefix_refl _)
                rw [if_neg this, if_neg this, if_neg hp', if_neg hp']

/-! ## Unite -/

/-- The elements written by `unite`, as single writes. -/
def setMany (t : MTree V) (ws : List (Bytes × MVal V)) : MTree V :=
  ws.foldl (fun t w => setVal t w.1 w.2) t

/-- The writes of a listing. -/
def writesOf (l : List (Bytes × List (MVal V))) : List (Bytes × MVal V) :=
  l.flatMap fun e => e.2.map fun v => (e.1, v)

theorem uniteItems_eq (k : Bytes) (l : List (MNode V)) (t : MTree V) :
    uniteItems k l t = setMany t (writesOf (l.flatMap fun n => emit (k ++ n.key) n.data)) := by
  induction l generalizing t with
  | nil => rfl
  | cons n ns ih =>
    simp only [uniteItems, List.foldl_cons, List.flatMap_cons, setMany, writesOf,
      List.flatMap_append, List.foldl_append]
    simp only [uniteItems, setMany, writesOf] at ih
    rw [ih]
    cases n.data <;> simp [emit, List.foldl_map]

theorem uniteLoop_eq (fuel : Nat) (q : List (Bytes × List (MNode V))) (t : MTree V) :
    uniteLoop fuel q t = setMany t (writesOf (uniteCalls fuel q)) := by
  induction fuel generalizing q t with
  | zero => rfl
  | succ fuel ih =>
    cases q with
    | nil => rfl
    | cons e es =>
      obtain ⟨k, l⟩ := e
      simp only [uniteLoop, uniteCalls]
      rw [ih, uniteItems_eq]
      simp [setMany, writesOf, List.foldl_append]

theorem unite_eq (t1 t2 : MTree V) : unite t1 t2 = setMany t1 (writesOf (uniteWrites t2)) :=
  uniteLoop_eq _ _ _

theorem ok_setMany {t : MTree V} (h : Ok t) (ws : List (Bytes × MVal V)) : Ok (setMany t ws) := by
  induction ws generalizing t with
  | nil => exact h
  | cons w ws ih => exact ih (ok_setVal h w.1 w.2)

theorem setMany_flat {t : MTree V} (h : Ok t) (ws : List (Bytes × MVal V))
    (hne : ∀ w ∈ ws, w.1 ≠ []) (k : Bytes) :
    flatL ((get (setMany t ws) k).getD []) =
      flatL ((get t k).getD []) ++ flatL ((ws.filter (·.1 = k)).map (·.2)) := by
  induction ws generalizing t with
  | nil => simp [setMany, flatL]
  | cons w ws ih =>
    have := ih (ok_setVal h w.1 w.2) fun w' hw' => hne w' (by simp [hw'])
    simp only [setMany, List.foldl_cons] at this ⊢
    rw [this, setVal_flat h w.1 (hne w (by simp)), List.filter_cons]
    by_cases e : k = w.1
    · subst e; simp [flatL]
    · have e' : ¬ w.1 = k := fun x => e x.symm
      simp [e, e']

theorem writesOf_filter {l : List (Bytes × List (MVal V))}
    (h : l.Pairwise fun a b => a.1 ≠ b.1) (k : Bytes) (vs : List (MVal V)) (hm : (k, vs) ∈ l) :
    ((writesOf l).filter (·.1 = k)).map (·.2) = vs := by
  have none : ∀ l' : List (Bytes × List (MVal V)), (∀ e ∈ l', e.1 ≠ k) →
      (writesOf l').filter (·.1 = k) = [] := by
    intro l' hl'
    rw [List.filter_eq_nil_iff]
    intro w hw
    simp only [writesOf, List.mem_flatMap, List.mem_map] at hw
    obtain ⟨e, he, v, -, rfl⟩ := hw
    simpa using hl' e he
  induction l with
  | nil => simp at hm
  | cons e es ih =>
    rw [List.pairwise_cons] at h
    have hsplit : writesOf (e :: es) = (e.2.map fun v => (e.1, v)) ++ writesOf es := by
      simp [writesOf]
    rw [hsplit, List.filter_append, List.map_append]
    rcases List.mem_cons.1 hm with rfl | hm'
    · rw [none es fun e' he' x => h.1 e' he' x.symm]
      simp [List.filter_map, Function.comp_def]
    · have : e.1 ≠ k := fun x => h.1 _ hm' x
      rw [ih h.2 hm']
      simp [List.filter_map, Function.comp_def, this]

theorem writesOf_filter_none {l : List (Bytes × List (MVal V))} (k : Bytes)
    (h : ∀ e ∈ l, e.1 ≠ k) : ((writesOf l).filter (·.1 = k)).map (·.2) = [] := by
  rw [List.map_eq_nil_iff, List.filter_eq_nil_iff]
  intro w hw
  simp only [writesOf, List.mem_flatMap, List.mem_map] at hw
  obtain ⟨e, he, v, -, rfl⟩ := hw
  simpa using h e he

theorem ok_unite {t1 t2 : MTree V} (h1 : Ok t1) : Ok (unite t1 t2) := by
  rw [unite_eq]; exact ok_setMany h1 _

theorem unite_flat {t1 t2 : MTree V} (h1 : Ok t1) (h2 : Ok t2) (k : Bytes) :
    flatL ((get (unite t1 t2) k).getD []) =
      flatL ((get t1 k).getD []) ++ flatL ((get t2 k).getD []) := by
  have hperm := uniteWrites_perm t2
  have hmem : ∀ k vs, (k, vs) ∈ uniteWrites t2 ↔ get t2 k = some vs := fun k vs =>
    hperm.mem_iff.trans (mem_pairs h2.wf k vs)
  have hnd : (uniteWrites t2).Pairwise fun a b => a.1 ≠ b.1 :=
    (uniteWrites_order h2.wf).imp fun {a b} hab e => hab (by rw [e]; exact List.prefix_refl _)
  rw [unite_eq, setMany_flat h1]
  · congr 1
    cases hg : get t2 k with
    | none =>
      rw [writesOf_filter_none]
      · rfl
      · rintro ⟨k', vs⟩ he rfl
        rw [hmem, hg] at he; simp at he
    | some vs => rw [writesOf_filter hnd k vs ((hmem k vs).2 hg)]; rfl
  · intro w hw
    simp only [writesOf, List.mem_flatMap, List.mem_map] at hw
    obtain ⟨⟨k', vs⟩, he, v, -, rfl⟩ := hw
    rw [hmem] at he
    rintro e
    simp only at e
    subst e
    rw [get_nil h2] at he; simp at he

/-! ## Comparison -/

theorem paircmp_refl {vcmp : List (MVal V) → List (MVal V) → Bool} (h : ∀ x, vcmp x x = true) :
    paircmp vcmp = RTree.paircmp (fun _ _ => true) := by
  funext a b; simp [paircmp, RTree.paircmp, h]

theorem cmp_keys {vcmp : List (MVal V) → List (MVal V) → Bool} (h : ∀ x, vcmp x x = true)
    {t1 t2 : MTree V} (h1 : Ok t1) (h2 : Ok t2) :
    cmp vcmp t1 t2 = true ↔ ∀ k, (get t1 k).isSome = (get t2 k).isSome := by
  have e : cmp vcmp t1 t2 = RTree.cmp (fun _ _ => true) t1 t2 := by
    simp only [cmp, paircmp_refl h, RTree.cmp, pairs]
  rw [e, cmp_iff _ h1.wf h2.wf]
  refine forall_congr' fun k => ?_
  rw [show RTree.get t1 k = get t1 k from rfl, show RTree.get t2 k = get t2 k from rfl]
  cases get t1 k <;> cases get t2 k <;> simp

/-! ## Reachable multi-dictionaries -/

/-- Both outcomes of a removal that returns. -/
theorem unset_cases {t t' : MTree V} (h : Ok t) (k : Bytes) (hu : MTree.unset t k = .ok t') :
    Ok t' ∧ (MTree.get t' k).getD [] = [] ∧
    (∀ k', k' ≠ k → MTree.get t' k' = MTree.get t k') ∧
    t'.len = t.len - ((MTree.get t k).getD []).length := by
  simp only [MTree.unset] at hu
  split at hu
  · simp at hu
  · rename_i hx
    simp at hu; subst hu
    have := unsetLoop_missing _ _ _ _ h.wf (Nat.le_refl _) hx
    rw [← MTree.get_eq h.wf] at this
    exact ⟨h, by simp [this], by simp, by simp [this]⟩
  · rename_i s d hx
    simp at hu; subst hu
    obtain ⟨h1, h2, h3, ⟨vs, h4, h5⟩, h6, h7⟩ := unsetLoop_found _ _ _ _ _ _ h.wf h.tailed h.full hx
    refine ⟨⟨h1, h2, h3⟩, ?_, ?_, ?_⟩
    · rw [MTree.get_eq h1]; exact h6
    · intro k' hk'
      rw [MTree.get_eq h1, MTree.get_eq h.wf]; exact h7 k' hk'
    · rw [MTree.get_eq h.wf, h4, h5]; rfl

theorem mreach_ok {t : MTree V} (h : MReach t) : Ok t := by
  induction h with
  | create => exact ok_create
  | set k v _ ih => exact ok_setVal ih k _
  | unset k _ hu ih => exact (unset_cases ih k hu).1
  | unite _ _ ih _ => exact ok_unite ih
  | @copy t t' _ hu ih =>
    simp only [MTree.copy] at hu
    split at hu
    · simp at hu; subst hu; exact ⟨wf_empty, tok_empty _ _, alln_empty _ _⟩
    · simp at hu

end Comps.MTree
