import Verif.Spec.BRadix
import Verif.Lemmas.Radix
import Verif.Lemmas.RTreeReach

/-!
# Lemmas on the dictionary with keys of any kind
-/

namespace Comps
namespace BRadix
open Comps.Radix (Calls Store newData destroyData dropped dropList dropNode dropNode_eq dropList_perm
  dropList_cons dropList_nil freed_nil freed_one freed_append freed_some)
open Comps.RTree (WF Heads TOK AllN listLk nodeLk)
open Comps.Spec Comps.Spec.BDict
open Comps.Spec.Plain (freed made)
variable {V : Type}

/-- What holds of a list of nodes below `pre` if every key written is in `W`. -/
structure Inv (W : Bytes → Prop) (pre : Bytes) (l : HSList (Node V)) : Prop where
  wf : WF l
  tok : TOK (fun _ => False) pre l
  all : AllN (fun p _ => ∃ w, W w ∧ p <+: w) pre l

theorem inv_empty (W : Bytes → Prop) (pre : Bytes) : Inv W pre (HSList.empty : HSList (Node V)) :=
  ⟨RTree.wf_empty, RTree.tok_empty _ _, RTree.alln_empty _ _⟩

theorem Inv.mono {W W' : Bytes → Prop} {pre : Bytes} {l : HSList (Node V)} (h : ∀ w, W w → W' w)
    (hi : Inv W pre l) : Inv W' pre l :=
  ⟨hi.wf, hi.tok, hi.all.mono fun _ _ ⟨w, h1, h2⟩ => ⟨w, h w h1, h2⟩⟩

theorem Inv.sub {W : Bytes → Prop} {pre : Bytes} {l : HSList (Node V)} (hi : Inv W pre l) {n : Node V}
    (hn : n ∈ l.items) : Inv W (pre ++ n.key) n.subnodes :=
  ⟨hi.wf.sub n hn, hi.tok.sub n hn, hi.all.sub n hn⟩

theorem Inv.nil {W : Bytes → Prop} {pre : Bytes} {l : HSList (Node V)} (hi : Inv W pre l)
    (h : l.tailSet = false) : l.items = [] := by
  cases hc : l.items with
  | nil => rfl
  | cons n r => exact (hi.tok.top h n (by simp [hc])).elim

theorem inv_of_perm {W : Bytes → Prop} {pre : Bytes} {l : HSList (Node V)} {r : List (Node V)}
    (hp : l.items.Perm r) (hh : Heads r) (hne : r ≠ []) (ht : l.tailSet = true)
    (hq : ∀ n ∈ r, ∃ w, W w ∧ pre ++ n.key <+: w) (hs : ∀ n ∈ r, Inv W (pre ++ n.key) n.subnodes) :
    Inv W pre l :=
  ⟨RTree.wf_of_perm hp hh hne fun n hn => (hs n hn).wf,
   RTree.tok_of_perm hp (by simp [ht]) fun n hn => (hs n hn).tok,
   RTree.alln_of_perm hp hq fun n hn => (hs n hn).all⟩

/-- The shapes of one step of `set`. -/
inductive Step (c : Calls V) (v : Option V) (fuel : Nat) (pre : Bytes) (b : UInt8) (bs : Bytes)
    (l : HSList (Node V)) (out : Res (HSList (Node V) × List (Option V))) : Prop
  | fresh (l' : HSList (Node V)) : (∀ n ∈ l.items, n.key.head? ≠ some b) →
      l'.items.Perm (Node.leaf (b :: bs) v :: l.items) → l'.tailSet = true →
      out = .ok (l', []) → Step c v fuel pre b bs l out
  | both (l' : HSList (Node V)) (n : Node V) (r : List (Node V)) : n.key = b :: bs →
      l.items.Perm (n :: r) → l'.items.Perm (Node.mk n.key v n.sub n.tail :: r) →
      l'.tailSet = l.tailSet → (c.dtor = true → out = .ok (l', [n.data])) →
      Step c v fuel pre b bs l out
  | prefixed (n : Node V) (a : UInt8) (as : Bytes) : n ∈ l.items → n.key = (b :: bs) ++ a :: as →
      Step c v fuel pre b bs l out
  | deeper (n : Node V) (r : List (Node V)) (a : UInt8) (as : Bytes)
      (f : HSList (Node V) → HSList (Node V)) :
      b :: bs = n.key ++ a :: as → n.key.head? = some b → l.items.Perm (n :: r) →
      (∀ s, (f s).items.Perm (Node.ofList n.key n.data s :: r)) →
      (∀ s, (f s).tailSet = l.tailSet) →
      out = (do
        let x ← setLoop c v fuel (pre ++ n.key) (a :: as) n.subnodes
        .ok (f x.1, x.2)) →
      Step c v fuel pre b bs l out
  | split (l' : HSList (Node V)) (n : Node V) (r : List (Node V)) (p : Bytes) (a b' : UInt8)
      (as bs' : Bytes) (subs : HSList (Node V)) :
      n.key = b :: p ++ a :: as → b :: bs = b :: p ++ b' :: bs' → a ≠ b' → l.items.Perm (n :: r) →
      subs.items.Perm [Node.mk (a :: as) n.data n.sub n.tail, Node.leaf (b' :: bs') v] →
      l'.items.Perm (Node.ofList (b :: p) none subs :: r) → subs.tailSet = true →
      l'.tailSet = true → out = .ok (l', []) → Step c v fuel pre b bs l out

theorem append_perm (l : HSList (Node V)) (n : Node V) (h : l.tailSet = false → l.items = []) :
    (l.append n).items.Perm (n :: l.items) := by
  simp only [HSList.append]
  split
  · exact List.perm_append_singleton _ _
  · rename_i ht
    rw [h (by simpa using ht)]

theorem append_tail (l : HSList (Node V)) (n : Node V) : (l.append n).tailSet = true := by
  simp only [HSList.append]; split <;> rfl

theorem set_step (c : Calls V) (v : Option V) (fuel : Nat) (pre : Bytes) (b : UInt8) (bs : Bytes)
    (l : HSList (Node V)) (ht : l.tailSet = false → l.items = []) :
    Step c v fuel pre b bs l (setLoop c v (fuel + 1) pre (b :: bs) l) := by
  simp only [setLoop]
  cases hfd : RTree.findAt b l.items with
  | none => exact .fresh _ (RTree.findAt_none hfd) (append_perm l _ ht) (append_tail _ _) rfl
  | some r =>
    obtain ⟨i, n⟩ := r
    obtain ⟨fr, post, hitems, hi, hh⟩ := RTree.findAt_some hfd
    subst hi
    have hm := RTree.matchKey_spec bs hh
    have hp : l.items.Perm (n :: (fr ++ post)) := hitems ▸ RTree.perm_mid fr post n
    have hset : ∀ n', (l.setAt fr.length n').items.Perm (n' :: (fr ++ post)) := by
      intro n'
      simp only [HSList.setAt, hitems, RTree.set_mid]
      exact RTree.perm_mid _ _ _
    have htl : l.tailSet = true := by
      cases hc : l.tailSet with
      | true => rfl
      | false => have := ht hc; rw [hitems] at this; simp at this
    cases hmk : RTree.matchKey n.key (b :: bs) with
    | both y =>
      simp only [hmk] at hm
      refine .both _ n _ hm hp (hset _) rfl fun hc => ?_
      simp only [hmk, destroyData, hc, if_true, bind, Except.bind]
    | keyEnds y =>
      simp only [hmk] at hm
      obtain ⟨⟨a, as, h1⟩, -⟩ := hm
      exact .prefixed n a as (hp.mem_iff.2 (by simp)) h1
    | nodeEnds y =>
      simp only [hmk] at hm
      obtain ⟨⟨a, as, h1⟩, rfl⟩ := hm
      have hd : (b :: bs).drop n.key.length = a :: as := by rw [h1]; simp
      have hd2 : (b :: bs).take n.key.length = n.key := by rw [h1]; simp
      simp only [hmk]
      rw [hd, hd2]
      exact .deeper n (fr ++ post) a as (fun s => l.setAt fr.length (Node.ofList n.key n.data s)) h1 hh
        hp (fun s => hset _) (fun _ => rfl) rfl
    | differ y =>
      simp only [hmk] at hm
      obtain ⟨p, a, as, b', bs', h1, h2, h3, rfl⟩ := hm
      have hd1 : (b :: bs).drop (b :: p).length = b' :: bs' := by rw [h2]; simp
      have hd2 : n.key.drop (b :: p).length = a :: as := by rw [h1]; simp
      have hd3 : n.key.take (b :: p).length = b :: p := by rw [h1]; simp
      simp only [hmk]
      rw [hd1, hd2, hd3]
      refine .split _ n (fr ++ post) p a b' as bs' ((HSList.empty.append (Node.leaf (b' :: bs') v)).append
        (Node.mk (a :: as) n.data n.sub n.tail)) h1 h2 h3 hp ?_ ?_ ?_ (append_tail _ _) rfl
      · simp [HSList.append, HSList.empty]; exact List.Perm.swap _ _ _
      · refine (append_perm _ _ ?_).trans ?_
        · simp only [HSList.removeAt, htl, Bool.true_and]
          intro h; simpa using h
        · simp [HSList.removeAt, hitems, RTree.eraseIdx_mid]
      · simp [HSList.append, HSList.empty]

/-- What one write does. -/
theorem setLoop_spec (c : Calls V) (hc : c.dtor = true) (v : Option V) (W : Bytes → Prop)
    (fuel : Nat) (pre k : Bytes) (l : HSList (Node V)) (hk : k ≠ []) (hf : k.length ≤ fuel)
    (hi : Inv W pre l) (hW : ∀ w, W w → ¬ ProperPrefix (pre ++ k) w) :
    ∃ l' d, setLoop c v fuel pre k l = .ok (l', d) ∧
      Inv (fun w => W w ∨ w = pre ++ k) pre l' ∧
      (∀ k', listLk l'.items k' = if k' = k then v else listLk l.items k') ∧
      (freed d ++ dropList l'.items).Perm (v.toList ++ dropList l.items) := by
  induction fuel generalizing pre k l with
  | zero => cases k <;> simp_all
  | succ fuel ih =>
    cases k with
    | nil => simp at hk
    | cons b bs =>
      have up : ∀ w, W w → (W w ∨ w = pre ++ b :: bs) := fun w h => .inl h
      have hi' := hi.mono (W' := fun w => W w ∨ w = pre ++ b :: bs) up
      cases set_step c v fuel pre b bs l hi.nil with
      | fresh l' h0 h1 h2 h3 =>
        have hh : Heads (Node.leaf (b :: bs) v :: l.items) := by
          rw [RTree.heads_cons]
          exact ⟨by simp, fun m hm e => h0 m hm (by simpa using e.symm), hi.wf.heads⟩
        refine ⟨l', [], h3, ?_, ?_, ?_⟩
        · refine inv_of_perm h1 hh (by simp) h2 ?_ ?_
          · simp only [List.mem_cons, forall_eq_or_imp, RTree.leaf_key]
            exact ⟨⟨_, .inr rfl, List.prefix_refl _⟩, hi'.all.top⟩
          · simp only [List.mem_cons, forall_eq_or_imp, RTree.leaf_key, RTree.leaf_subnodes]
            exact ⟨inv_empty _ _, fun m hm => hi'.sub hm⟩
        · intro k'
          rw [RTree.listLk_perm h1 (RTree.heads_perm h1.symm hh), RTree.listLk_cons]
          by_cases e : k' = b :: bs
          · subst e; simp [RTree.nodeLk_eq]
          · rw [if_neg e]
            split
            · rename_i hh
              simp at hh
              rw [RTree.listLk_none (by rw [← hh]; exact h0), RTree.nodeLk_eq]
              simp [e, listLk]
            · rfl
        · simp only [freed_nil, List.nil_append]
          refine (dropList_perm h1).trans ?_
          rw [dropList_cons, dropNode_eq]
          simp [Node.leaf]
      | both l' n r h1 h2 h3 h4 h5 =>
        have hn : n ∈ l.items := h2.mem_iff.2 (by simp)
        have hr : ∀ m ∈ r, m ∈ l.items := fun m hm => h2.mem_iff.2 (by simp [hm])
        have hlt : l.tailSet = true := by
          cases e : l.tailSet with
          | true => rfl
          | false => rw [hi.nil e] at hn; simp at hn
        have hhl := RTree.heads_perm h2 hi.wf.heads
        have hh : Heads (Node.mk n.key v n.sub n.tail :: r) :=
          RTree.heads_replace hhl (hi.wf.ne n hn) rfl
        refine ⟨l', [n.data], h5 hc, ?_, ?_, ?_⟩
        · refine inv_of_perm h3 hh (by simp) (h4.trans hlt) ?_ ?_
          · simp only [List.mem_cons, forall_eq_or_imp]
            exact ⟨hi'.all.top n hn, fun m hm => hi'.all.top m (hr m hm)⟩
          · simp only [List.mem_cons, forall_eq_or_imp]
            exact ⟨(hi'.sub hn : Inv _ (pre ++ n.key) n.subnodes), fun m hm => hi'.sub (hr m hm)⟩
        · intro k'
          rw [RTree.listLk_perm h3 (RTree.heads_perm h3.symm hh)]
          by_cases e : k' = b :: bs
          · subst e; rw [RTree.listLk_cons]; simp [h1, RTree.nodeLk_eq]
          · rw [if_neg e, RTree.listLk_perm h2 hi.wf.heads]
            refine RTree.listLk_replace rfl fun _ => ?_
            have e' : ¬ k' = n.key := by rw [h1]; exact e
            simp [RTree.nodeLk_eq, e']
        · simp only [freed_one]
          refine ((dropList_perm h3).append_left _).trans ?_
          refine List.Perm.trans ?_ ((dropList_perm h2).append_left _).symm
          simp only [dropList_cons, dropNode_eq, RTree.data_mk, RTree.sub_mk, List.append_assoc]
          rw [← List.append_assoc, ← List.append_assoc v.toList]
          exact List.perm_append_comm.append_right _
      | prefixed n a as h1 h2 =>
        exfalso
        obtain ⟨w, hw, ⟨t, ht⟩⟩ := hi.all.top n h1
        refine hW w hw ⟨a, as ++ t, ?_⟩
        rw [← ht, h2]; simp
      | deeper n r a as f h1 h2 h3 h4 h5 h6 =>
        have hn : n ∈ l.items := h3.mem_iff.2 (by simp)
        have hr : ∀ m ∈ r, m ∈ l.items := fun m hm => h3.mem_iff.2 (by simp [hm])
        have hne : n.key ≠ [] := hi.wf.ne n hn
        have hlt : l.tailSet = true := by
          cases e : l.tailSet with
          | true => rfl
          | false => rw [hi.nil e] at hn; simp at hn
        have e0 : pre ++ b :: bs = pre ++ n.key ++ a :: as := by rw [h1]; simp
        obtain ⟨s, d, i1, i2, i3, i4⟩ := ih (pre ++ n.key) (a :: as) n.subnodes (by simp)
          (by
            have := congrArg List.length h1
            have := List.length_pos_iff.2 hne
            simp at *; omega) (hi.sub hn) (by rw [← e0]; exact hW)
        have hhl := RTree.heads_perm h3 hi.wf.heads
        have hh : Heads (Node.ofList n.key n.data s :: r) := RTree.heads_replace hhl hne rfl
        refine ⟨f s, d, ?_, ?_, ?_, ?_⟩
        · rw [h6, i1]; rfl
        · refine inv_of_perm (h4 s) hh (by simp) ((h5 s).trans hlt) ?_ ?_
          · simp only [List.mem_cons, forall_eq_or_imp, RTree.ofList_key]
            exact ⟨hi'.all.top n hn, fun m hm => hi'.all.top m (hr m hm)⟩
          · simp only [List.mem_cons, forall_eq_or_imp, RTree.ofList_key, RTree.ofList_subnodes]
            refine ⟨?_, fun m hm => hi'.sub (hr m hm)⟩
            rw [e0]; exact i2
        · intro k'
          rw [RTree.listLk_perm (h4 s) (RTree.heads_perm (h4 s).symm hh)]
          have hkk : ∀ q, k' = n.key ++ q → (k' = b :: bs ↔ q = a :: as) := by
            intro q hq; rw [hq, h1]; simp
          by_cases hp : n.key <+: k' ∧ k' ≠ n.key
          · obtain ⟨⟨q, hq⟩, hq'⟩ := hp
            have hhd : n.key.head? = k'.head? := by
              exact RTree.head_of_prefix hne ⟨q, hq⟩
            rw [RTree.listLk_cons, if_pos (by simpa using hhd), RTree.nodeLk_eq]
            simp only [RTree.ofList_key, RTree.ofList_data, RTree.ofList_sub]
            rw [if_neg hq', if_pos ⟨q, hq⟩]
            have hd : k'.drop n.key.length = q := by rw [← hq]; simp
            rw [hd, i3 q, RTree.listLk_perm h3 hi.wf.heads, RTree.listLk_cons, if_pos hhd,
              RTree.nodeLk_eq]
            have hpre : n.key <+: k' := ⟨q, hq⟩
            simp only [hq', hpre, if_true, if_false, hd, hkk q hq.symm, RTree.subnodes_items]
          · have e : k' ≠ b :: bs := by
              intro e
              refine hp ⟨by rw [e, h1]; exact List.prefix_append _ _, ?_⟩
              rw [e, h1]; simp
            rw [if_neg e, RTree.listLk_perm h3 hi.wf.heads]
            refine RTree.listLk_replace rfl fun _ => ?_
            simp only [RTree.nodeLk_eq, RTree.ofList_key, RTree.ofList_data, RTree.ofList_sub]
            by_cases e2 : k' = n.key
            · simp [e2]
            · rw [if_neg e2, if_neg e2, if_neg (fun h => hp ⟨h, e2⟩), if_neg (fun h => hp ⟨h, e2⟩)]
        · have e : (dropList (f s).items).Perm (n.data.toList ++ dropList s.items ++ dropList r) := by
            refine (dropList_perm (h4 s)).trans ?_
            rw [dropList_cons, dropNode_eq]; simp
          have e2 : (dropList l.items).Perm
              (n.data.toList ++ dropList n.subnodes.items ++ dropList r) := by
            refine (dropList_perm h3).trans ?_
            rw [dropList_cons, dropNode_eq]; simp
          refine (e.append_left _).trans ?_
          refine List.Perm.trans ?_ (e2.append_left _).symm
          classical
          rw [List.perm_iff_count] at i4 ⊢
          intro x
          have := i4 x
          simp only [List.count_append] at this ⊢
          omega
      | split l' n r p a b' as bs' subs h1 h2 h3 h4 h5 h6 h7 h8 h9 =>
        have hn : n ∈ l.items := h4.mem_iff.2 (by simp)
        have hr : ∀ m ∈ r, m ∈ l.items := fun m hm => h4.mem_iff.2 (by simp [hm])
        have hhl := RTree.heads_perm h4 hi.wf.heads
        have hh : Heads (Node.ofList (b :: p) none subs :: r) :=
          RTree.heads_replace hhl (by simp) (by simp [h1])
        have hsub : Heads [Node.mk (a :: as) n.data n.sub n.tail, Node.leaf (b' :: bs') v] := by
          simp [Heads]; exact h3
        have e0 : pre ++ n.key = pre ++ b :: p ++ a :: as := by rw [h1]; simp
        have e1 : pre ++ b :: bs = pre ++ b :: p ++ b' :: bs' := by rw [h2]; simp
        have hold := hi'.sub hn
        rw [e0] at hold
        refine ⟨l', [], h9, ?_, ?_, ?_⟩
        · refine inv_of_perm h6 hh (by simp) h8 ?_ ?_
          · simp only [List.mem_cons, forall_eq_or_imp, RTree.ofList_key]
            exact ⟨⟨_, .inr rfl, ⟨_, e1.symm⟩⟩, fun m hm => hi'.all.top m (hr m hm)⟩
          · simp only [List.mem_cons, forall_eq_or_imp, RTree.ofList_key, RTree.ofList_subnodes]
            refine ⟨?_, fun m hm => hi'.sub (hr m hm)⟩
            refine inv_of_perm h5 hsub (by simp) h7 ?_ ?_
            · simp only [List.mem_cons, forall_eq_or_imp, RTree.key_mk, RTree.leaf_key,
                List.not_mem_nil, false_implies, implies_true, and_true]
              refine ⟨?_, ⟨_, .inr rfl, by rw [e1]; exact List.prefix_refl _⟩⟩
              have := hi'.all.top n hn
              rw [e0] at this; exact this
            · simp only [List.mem_cons, forall_eq_or_imp, RTree.key_mk, RTree.leaf_key,
                RTree.subnodes_mk, RTree.leaf_subnodes, List.not_mem_nil, false_implies, implies_true,
                and_true]
              exact ⟨hold, inv_empty _ _⟩
        · intro k'
          rw [RTree.listLk_perm h6 (RTree.heads_perm h6.symm hh), RTree.listLk_perm h4 hi.wf.heads]
          rw [RTree.listLk_cons, RTree.listLk_cons, h1]
          simp only [RTree.ofList_key, List.cons_append, List.head?_cons]
          have hlk : nodeLk n k' = nodeLk (.mk (b :: p ++ a :: as) n.data n.sub n.tail) k' := by
            rw [← h1]; simp [RTree.nodeLk_eq]
          by_cases hhd : some b = k'.head?
          · simp only [if_pos hhd, hlk]
            by_cases hp : b :: p <+: k'
            · obtain ⟨q, rfl⟩ := hp
              have hdr : ((b :: p) ++ q).drop (b :: p).length = q := by simp
              have e2 : ((b :: p) ++ q = b :: bs) ↔ q = b' :: bs' := by rw [h2]; simp
              rw [RTree.nodeLk_append _ _ _ _ _ _ (by simp), RTree.nodeLk_eq]
              simp only [RTree.ofList_key, RTree.ofList_data, RTree.ofList_sub, e2, hdr]
              rw [if_pos (List.prefix_append _ _), RTree.listLk_perm h5 (RTree.heads_perm h5.symm hsub)]
              cases q with
              | nil => simp [RTree.nodeLk_eq]
              | cons x xs =>
                rw [if_neg (by simp)]
                simp only [RTree.listLk_cons, RTree.key_mk, List.head?_cons, RTree.leaf_key,
                  Option.some.injEq]
                by_cases hxa : a = x
                · subst hxa
                  have : ¬ (a :: xs = b' :: bs') := by
                    intro e; injection e with e; exact h3 e
                  rw [if_pos rfl, if_neg this]
                · rw [if_neg hxa]
                  by_cases hxb : b' = x
                  · subst hxb
                    rw [if_pos rfl, RTree.nodeLk_eq]
                    simp only [RTree.leaf_key, RTree.leaf_data, RTree.leaf_sub]
                    by_cases hxs : b' :: xs = b' :: bs'
                    · simp [hxs]
                    · rw [if_neg hxs, if_neg hxs, RTree.nodeLk_eq]
                      have n1 : ¬ b' :: xs = a :: as := by
                        intro e; injection e with e; exact hxa e.symm
                      have n2 : ¬ a :: as <+: b' :: xs := by
                        intro e; rw [List.cons_prefix_cons] at e; exact hxa e.1
                      simp [n1, n2, listLk]
                  · have : ¬ (x :: xs = b' :: bs') := by
                      intro e; injection e with e; exact hxb e.symm
                    rw [if_neg hxb, if_neg this, RTree.nodeLk_eq]
                    have n1 : ¬ x :: xs = a :: as := by
                      intro e; injection e with e; exact hxa e.symm
                    have n2 : ¬ a :: as <+: x :: xs := by
                      intro e; rw [List.cons_prefix_cons] at e; exact hxa e.1
                    simp only [RTree.key_mk, RTree.data_mk, RTree.sub_mk]
                    rw [if_neg n1, if_neg n2]
                    simp [listLk]
            · have e : ¬ k' = b :: bs := by
                intro e; exact hp (by rw [e, h2]; exact List.prefix_append _ _)
              rw [if_neg e, RTree.nodeLk_not_prefix _ _ _ _ _ _ hp, RTree.nodeLk_eq]
              have e3 : ¬ k' = b :: p := fun h => hp (by rw [h]; exact List.prefix_refl _)
              simp only [RTree.ofList_key, e3, hp, if_false]
          · have e : ¬ k' = b :: bs := by intro e; exact hhd (by rw [e]; rfl)
            simp only [hhd, e, if_false]
        · simp only [freed_nil, List.nil_append]
          have q1 : (dropList l'.items).Perm (dropList subs.items ++ dropList r) := by
            refine (dropList_perm h6).trans ?_
            rw [dropList_cons, dropNode_eq]; simp
          have q2 : (dropList subs.items).Perm (dropNode n ++ v.toList) := by
            refine (dropList_perm h5).trans ?_
            simp only [dropList_cons, dropNode_eq, Node.leaf, RTree.data_mk, RTree.sub_mk,
              dropList_nil, List.append_nil]
            exact List.Perm.refl _
          refine q1.trans ((q2.append_right _).trans ?_)
          refine List.Perm.trans ?_ ((dropList_perm h4).append_left _).symm
          rw [dropList_cons, ← List.append_assoc]
          exact List.perm_append_comm.append_right _

/-! ## Writes -/

theorem set_spec (c : Calls V) (hc : c.dtor = true) (W : Bytes → Prop) (l : HSList (Node V))
    (k : Bytes) (v : Option V) (hk : k ≠ []) (hi : Inv W [] l) (hW : ∀ w, W w → ¬ ProperPrefix k w) :
    ∃ l' d, set c (.live l) k v = .ok (.live l', d) ∧ Inv (fun w => W w ∨ w = k) [] l' ∧
      (∀ k', listLk l'.items k' = if k' = k then made c v else listLk l.items k') ∧
      (freed d ++ dropList l'.items).Perm ((made c v).toList ++ dropList l.items) := by
  obtain ⟨l', d, h1, h2, h3, h4⟩ := setLoop_spec c hc (made c v) W k.length [] k l hk (Nat.le_refl _)
    hi (by simpa using hW)
  refine ⟨l', d, ?_, by simpa using h2, h3, h4⟩
  have h1' : setLoop c (newData c v) k.length [] k l = .ok (l', d) := h1
  simp only [set, Store.list, bind, Except.bind, h1']

theorem sets_spec (c : Calls V) (hc : c.dtor = true) (ws : List (Bytes × Option V)) (W : Bytes → Prop)
    (l : HSList (Node V)) (hi : Inv W [] l) (hW : ∀ e ∈ ws, ∀ w, W w → ¬ ProperPrefix e.1 w)
    (ho : Orderly ws) :
    ∃ l' d, sets c (.live l) ws = .ok (.live l', d) ∧
      Inv (fun w => W w ∨ ∃ e ∈ ws, e.1 = w) [] l' ∧
      listLk l'.items = FMap.writes (listLk l.items) (stored c ws) ∧
      (freed d ++ dropList l'.items).Perm (given c ws ++ dropList l.items) := by
  induction ws generalizing W l with
  | nil =>
    exact ⟨l, [], rfl, hi.mono fun w h => .inl h, rfl, by simp [given]⟩
  | cons e ws ih =>
    obtain ⟨k, v⟩ := e
    obtain ⟨ho1, ho2⟩ := ho
    rw [List.pairwise_cons] at ho2
    obtain ⟨l1, d1, h1, h2, h3, h4⟩ := set_spec c hc W l k v (ho1 (k, v) (by simp)) hi
      (hW (k, v) (by simp))
    obtain ⟨l2, d2, j1, j2, j3, j4⟩ := ih (fun w => W w ∨ w = k) l1 h2 (by
      rintro e he w (hw | rfl)
      · exact hW e (by simp [he]) w hw
      · exact ho2.1 e he) ⟨fun e he => ho1 e (by simp [he]), ho2.2⟩
    refine ⟨l2, d1 ++ d2, ?_, ?_, ?_, ?_⟩
    · simp only [sets] at j1
      simp only [sets, List.map_cons, run, h1, bind, Except.bind, j1]
    · refine j2.mono ?_
      rintro w ((h | rfl) | ⟨e, he, rfl⟩)
      · exact .inl h
      · exact .inr ⟨(w, v), by simp, rfl⟩
      · exact .inr ⟨e, by simp [he], rfl⟩
    · rw [j3]
      simp only [stored, List.map_cons, FMap.writes]
      congr 1
      funext k'
      rw [h3, FMap.upd]
    · simp only [freed_append, given, List.flatMap_cons]
      classical
      rw [List.perm_iff_count] at h4 j4 ⊢
      intro x
      have a1 := h4 x
      have a2 := j4 x
      simp only [List.count_append, given] at a1 a2 ⊢
      omega

theorem orderly_of_fixed {n : Nat} {ws : List (Bytes × Option V)} (h : FixedLength n ws) :
    Orderly ws := by
  refine ⟨fun e he h0 => ?_, ?_⟩
  · have := h.2 e he
    rw [h0] at this
    have h1 := h.1
    simp at this
    omega
  · refine List.Pairwise.imp_of_mem (R := fun _ _ => True) ?_ (List.pairwise_of_forall fun _ _ => trivial)
    rintro a b ha hb - ⟨x, xs, e⟩
    have e := congrArg List.length e
    rw [List.length_append, h.2 a ha, h.2 b hb] at e
    simp at e

/-! ## Reading -/

theorem get_live (W : Bytes → Prop) (pre : Bytes) (l : HSList (Node V)) (hi : Inv W pre l) (k : Bytes) :
    get (.live l) k = .ok (listLk l.items k) := by
  simp only [get, Store.list, bind, Except.bind]
  rw [RTree.getLoop_eq _ _ _ hi.wf (Nat.le_refl _)]

theorem allLoop_unite (fuel : Nat) (q : List (Bytes × List (Node V))) :
    allLoop fuel q = RTree.uniteCalls fuel q := by
  induction fuel generalizing q with
  | zero => rfl
  | succ fuel ih =>
    cases q with
    | nil => rfl
    | cons e es =>
      obtain ⟨k, l⟩ := e
      simp only [allLoop, RTree.uniteCalls, ih]
      congr 2

theorem pairs_live (l : HSList (Node V)) :
    ∃ ps, pairs (.live l) = .ok ps ∧ ps.Perm (RTree.preL [] l.items) := by
  refine ⟨_, rfl, ?_⟩
  rw [allLoop_unite]
  refine (RTree.uniteCalls_perm _ _ ?_).trans ?_
  · simp [RTree.qBound, Nat.add_comm]
  · simp

theorem pairs_spec (W : Bytes → Prop) (l : HSList (Node V)) (hi : Inv W [] l) :
    ∃ ps, pairs (.live l) = .ok ps ∧ ps.Pairwise (fun a b => a.1 ≠ b.1) ∧
      ∀ k v, (k, v) ∈ ps ↔ listLk l.items k = some v := by
  obtain ⟨ps, h1, h2⟩ := pairs_live l
  refine ⟨ps, h1, ?_, ?_⟩
  · exact (h2.pairwise_iff (fun h => Ne.symm h)).2 (RTree.preL_nodup hi.wf [])
  · intro k v
    rw [h2.mem_iff, RTree.mem_preL hi.wf]
    simp

/-! ## unset -/

/-- What a removal does: nothing, or it removes one key of the length of the one given. -/
theorem unsetLoop_spec (c : Calls V) (W : Bytes → Prop) (fuel : Nat) (nested : Bool) (pre k : Bytes)
    (l l' : HSList (Node V)) (d : List (Option V)) (hi : Inv W pre l)
    (h : unsetLoop c fuel nested k l = .ok (some (l', d))) :
    Inv W pre l' ∧ (nested = true → l'.items ≠ []) ∧
    ((c.dtor = false ∧ d = [] ∧ (∀ q, listLk l'.items q = listLk l.items q) ∧
        dropList l'.items = dropList l.items) ∨
     ∃ k', k'.length = k.length ∧
      (∀ q, listLk l'.items q = if q = k' then none else listLk l.items q) ∧
      freed d = (if c.dtor then (listLk l.items k').toList else []) ∧
      ((listLk l.items k').toList ++ dropList l'.items).Perm (dropList l.items)) := by
  induction fuel generalizing nested pre k l l' d with
  | zero => cases k <;> simp [unsetLoop] at h
  | succ fuel ih =>
    cases k with
    | nil => simp [unsetLoop] at h
    | cons b bs =>
      simp only [unsetLoop] at h
      cases hl : l.items with
      | nil => simp [hl] at h
      | cons n r =>
        have hn : n ∈ l.items := by simp [hl]
        have hr : ∀ m ∈ r, m ∈ l.items := fun m hm => by simp [hl, hm]
        have hne := hi.wf.ne n hn
        have hhl : Heads (n :: r) := hl ▸ hi.wf.heads
        have hlt : l.tailSet = true := by
          cases e : l.tailSet with
          | true => rfl
          | false => rw [hi.nil e] at hn; simp at hn
        have hkd : n.key.isEmpty = false := by cases hx : n.key <;> simp_all
        simp only [hl, hkd] at h
        obtain ⟨x, xs, hkey⟩ : ∃ x xs, n.key = x :: xs := by
          cases hx : n.key with
          | nil => exact (hne hx).elim
          | cons x xs => exact ⟨x, xs, rfl⟩
        have hmk : RTree.matchKey n.key (b :: bs) = RTree.matchKey n.key (x :: bs) := by
          simp [RTree.matchKey]
        have hm := RTree.matchKey_spec (nk := n.key) bs (by rw [hkey]; rfl : n.key.head? = some x)
        rw [← hmk] at hm
        have hself : listLk (n :: r) n.key = n.data := by
          rw [RTree.listLk_cons]; simp [RTree.nodeLk_eq]
        cases hc : RTree.matchKey n.key (b :: bs) with
        | keyEnds y => simp [hc] at h
        | differ y => simp [hc] at h
        | both y =>
          simp only [hc] at hm h
          cases hnt : n.tail with
          | true =>
            simp only [hnt, if_true] at h
            have hbad : ∀ n' : Node V, (nested && !(l.setAt 0 n').tailSet) = false := by
              intro n'; simp [HSList.setAt, hlt]
            cases hd : c.dtor with
            | true =>
              simp only [hd, if_true, hbad] at h
              injection h with h; injection h with h; injection h with h1 h2
              subst h1 h2
              have hit : (l.setAt 0 (Node.mk n.key none n.sub true)).items =
                  Node.mk n.key none n.sub true :: r := by simp [HSList.setAt, hl]
              have hh : Heads (Node.mk n.key none n.sub true :: r) :=
                RTree.heads_replace hhl hne rfl
              refine ⟨?_, fun _ => by rw [hit]; simp, .inr ⟨n.key, by rw [hm]; simp, ?_, ?_, ?_⟩⟩
              · refine inv_of_perm (by rw [hit]) hh (by simp) hlt ?_ ?_
                · simp only [List.mem_cons, forall_eq_or_imp]
                  exact ⟨hi.all.top n hn, fun m hm => hi.all.top m (hr m hm)⟩
                · simp only [List.mem_cons, forall_eq_or_imp]
                  refine ⟨?_, fun m hm => hi.sub (hr m hm)⟩
                  have := hi.sub hn
                  rw [Node.subnodes, hnt] at this
                  exact this
              · intro q
                rw [hit]
                by_cases e : q = n.key
                · subst e; rw [RTree.listLk_cons]; simp [RTree.nodeLk_eq]
                · rw [if_neg e]
                  refine RTree.listLk_replace rfl fun _ => ?_
                  simp [RTree.nodeLk_eq, e]
              · simp [hself]
              · rw [hit, hself]
                simp [dropList_cons, dropNode_eq]
            | false =>
              simp only [hd, hlt, Bool.not_true, Bool.and_false, Bool.false_eq_true, if_false] at h
              injection h with h; injection h with h; injection h with h1 h2
              subst h1 h2
              refine ⟨hi, fun _ => by rw [hl]; simp, .inl ⟨rfl, rfl, fun _ => by rw [hl], by rw [hl]⟩⟩
          | false =>
            simp only [hnt] at h
            have hsub : n.sub = [] := (hi.sub hn).nil (by simpa using hnt)
            have hit : (l.removeAt 0).items = r := by simp [HSList.removeAt, hl]
            have hts : (l.removeAt 0).tailSet = !r.isEmpty := by simp [HSList.removeAt, hl, hlt]
            have hres : l' = l.removeAt 0 ∧ d = dropped c (dropNode n) ∧
                (nested = true → r ≠ []) := by
              simp only [Bool.false_eq_true, if_false] at h
              split at h
              · cases h
              · rename_i hnn
                injection h with h; injection h with h; injection h with h1 h2
                refine ⟨h1.symm, h2.symm, ?_⟩
                rintro rfl rfl
                simp [hts] at hnn
            obtain ⟨rfl, rfl, hnr⟩ := hres
            have hnone : listLk r n.key = none :=
              RTree.listLk_none fun m hm => (RTree.heads_cons.1 hhl).2.1 m hm |>.symm
            refine ⟨⟨?_, ?_, ?_⟩, fun hx => by rw [hit]; exact hnr hx,
              .inr ⟨n.key, by rw [hm]; simp, ?_, ?_, ?_⟩⟩
            · refine RTree.wf_of (by rw [hit]; exact (RTree.heads_cons.1 hhl).2.2) ?_ ?_
              · rw [hts, hit]; intro e h0; simp [h0] at e
              · rw [hit]; exact fun m hm => hi.wf.sub m (hr m hm)
            · refine .mk _ _ ?_ ?_
              · rw [hts, hit]; intro e m hm
                cases r with
                | nil => simp at hm
                | cons _ _ => simp at e
              · rw [hit]; exact fun m hm => hi.tok.sub m (hr m hm)
            · exact .mk _ _ (by rw [hit]; exact fun m hm => hi.all.top m (hr m hm))
                (by rw [hit]; exact fun m hm => hi.all.sub m (hr m hm))
            · intro q
              rw [hit]
              by_cases e : q = n.key
              · subst e; rw [if_pos rfl, hnone]
              · rw [if_neg e, RTree.listLk_cons]
                split
                · rename_i hq
                  rw [RTree.listLk_none (fun m hm => by
                    rw [← hq]; exact ((RTree.heads_cons.1 hhl).2.1 m hm).symm), RTree.nodeLk_eq]
                  simp [e, hsub, listLk]
                · rfl
            · rw [hself]
              cases hd : c.dtor <;> simp [dropped, hd, dropNode_eq, hsub]
            · rw [hit, hself]
              simp [dropList_cons, dropNode_eq, hsub]
        | nodeEnds y =>
          simp only [hc] at hm h
          obtain ⟨⟨a, as, h1⟩, rfl⟩ := hm
          have hd : (b :: bs).drop n.key.length = a :: as := by
            have : (b :: bs).drop n.key.length = (x :: bs).drop n.key.length := by rw [hkey]; simp
            rw [this, h1]; simp
          rw [hd] at h
          cases hu : unsetLoop c fuel true (a :: as) n.subnodes with
          | error e => simp [hu, bind, Except.bind] at h
          | ok o =>
            cases o with
            | none => simp [hu, bind, Except.bind] at h
            | some s =>
              obtain ⟨s, ds⟩ := s
              simp only [hu, bind, Except.bind] at h
              injection h with h; injection h with h; injection h with h2 h3
              subst h2 h3
              obtain ⟨i1, i2, i3⟩ := ih true (pre ++ n.key) (a :: as) n.subnodes s ds (hi.sub hn) hu
              have hit : (l.setAt 0 (Node.ofList n.key n.data s)).items =
                  Node.ofList n.key n.data s :: r := by simp [HSList.setAt, hl]
              have hh : Heads (Node.ofList n.key n.data s :: r) := RTree.heads_replace hhl hne rfl
              refine ⟨?_, fun _ => by rw [hit]; simp, ?_⟩
              · refine inv_of_perm (by rw [hit]) hh (by simp) hlt ?_ ?_
                · simp only [List.mem_cons, forall_eq_or_imp]
                  exact ⟨hi.all.top n hn, fun m hm => hi.all.top m (hr m hm)⟩
                · simp only [List.mem_cons, forall_eq_or_imp]
                  exact ⟨i1, fun m hm => hi.sub (hr m hm)⟩
              · rcases i3 with ⟨j1, j2, j3, j4⟩ | ⟨k', j1, j2, j3, j4⟩
                · refine .inl ⟨j1, j2, fun q => ?_, ?_⟩
                  · rw [hit]
                    refine RTree.listLk_replace rfl fun _ => ?_
                    simp [RTree.nodeLk_eq, j3]
                  · rw [hit]; simp [dropList_cons, dropNode_eq, j4]
                · have hk0 : k' ≠ [] := by intro e; rw [e] at j1; simp at j1
                  have hlk : listLk (n :: r) (n.key ++ k') = listLk n.sub k' := by
                    rw [RTree.listLk_cons, if_pos (by rw [hkey]; rfl), RTree.nodeLk_eq,
                      if_neg (by simpa using hk0), if_pos (List.prefix_append _ _)]
                    simp
                  refine .inr ⟨n.key ++ k', ?_, ?_, ?_, ?_⟩
                  · have : (b :: bs).length = (x :: bs).length := by simp
                    rw [this, h1]; simp [j1]
                  · intro q
                    rw [hit]
                    by_cases hp : n.key <+: q ∧ q ≠ n.key
                    · obtain ⟨⟨t, rfl⟩, hq⟩ := hp
                      have hhd : n.key.head? = (n.key ++ t).head? := by rw [hkey]; rfl
                      have hpre : n.key <+: n.key ++ t := List.prefix_append _ _
                      rw [RTree.listLk_cons, RTree.listLk_cons]
                      simp only [RTree.ofList_key, if_pos hhd, RTree.nodeLk_eq, RTree.ofList_data,
                        RTree.ofList_sub, if_neg hq, if_pos hpre, List.append_cancel_left_eq,
                        List.drop_left, j2, RTree.subnodes_items]
                    · have e : q ≠ n.key ++ k' := by
                        rintro rfl
                        exact hp ⟨List.prefix_append _ _, by simpa using hk0⟩
                      rw [if_neg e]
                      refine RTree.listLk_replace rfl fun _ => ?_
                      simp only [RTree.nodeLk_eq, RTree.ofList_key, RTree.ofList_data,
                        RTree.ofList_sub]
                      by_cases e2 : q = n.key
                      · simp [e2]
                      · rw [if_neg e2, if_neg e2, if_neg (fun h => hp ⟨h, e2⟩),
                          if_neg (fun h => hp ⟨h, e2⟩)]
                  · rw [hlk]; exact j3
                  · rw [hlk, hit]
                    simp only [dropList_cons, dropNode_eq, RTree.ofList_data, RTree.ofList_sub]
                    classical
                    rw [List.perm_iff_count] at j4 ⊢
                    intro z
                    have := j4 z
                    simp only [List.count_append, RTree.subnodes_items] at this ⊢
                    omega

theorem unset_live (c : Calls V) (hc : c.dtor = true) (W : Bytes → Prop) (l : HSList (Node V)) (k : Bytes)
    (s' : Store V) (d : List (Option V)) (hi : Inv W [] l) (h : unset c (.live l) k = .ok (s', d)) :
    ∃ l', s' = .live l' ∧ Inv W [] l' ∧ (freed d ++ dropList l'.items).Perm (dropList l.items) ∧
      ((s' = .live l ∧ d = []) ∨ ∃ k', k'.length = k.length ∧
        (∀ q, listLk l'.items q = if q = k' then none else listLk l.items q) ∧
        freed d = (listLk l.items k').toList) := by
  simp only [unset, Store.list, bind, Except.bind] at h
  cases hu : unsetLoop c k.length false k l with
  | error e => simp [hu] at h
  | ok o =>
    cases o with
    | none =>
      simp only [hu] at h
      injection h with h; injection h with h1 h2
      subst h1 h2
      exact ⟨l, rfl, hi, by simp, .inl ⟨rfl, rfl⟩⟩
    | some r =>
      obtain ⟨l', d'⟩ := r
      simp only [hu] at h
      injection h with h; injection h with h1 h2
      subst h1 h2
      obtain ⟨j1, -, j2⟩ := unsetLoop_spec c W k.length false [] k l l' d' hi hu
      rcases j2 with ⟨j2, -⟩ | ⟨k', e1, e2, e3, e4⟩
      · rw [hc] at j2; cases j2
      · rw [hc, if_pos rfl] at e3
        exact ⟨l', rfl, j1, by rw [e3]; exact e4, .inr ⟨k', e1, e2, e3⟩⟩

/-- What holds after calls. -/
theorem run_inv (c : Calls V) (hc : c.dtor = true) (xs : List (Call V)) (W : Bytes → Prop)
    (l : HSList (Node V)) (s : Store V) (d : List (Option V)) (hi : Inv W [] l)
    (hW : ∀ e ∈ writesOf xs, ∀ w, W w → ¬ ProperPrefix e.1 w) (ho : Orderly (writesOf xs))
    (h : run c (.live l) xs = .ok (s, d)) :
    ∃ l' W', s = .live l' ∧ Inv W' [] l' ∧
      (freed d ++ dropList l'.items).Perm (given c (writesOf xs) ++ dropList l.items) := by
  induction xs generalizing W l d with
  | nil =>
    simp only [run] at h
    injection h with h; injection h with h1 h2
    subst h1 h2
    exact ⟨l, W, rfl, hi, by simp [writesOf, given]⟩
  | cons x xs ih =>
    cases x with
    | set k v =>
      simp only [writesOf] at hW ho
      obtain ⟨ho1, ho2⟩ := ho
      rw [List.pairwise_cons] at ho2
      obtain ⟨l1, d1, h1, h2, -, h4⟩ := set_spec c hc W l k v (ho1 (k, v) (by simp)) hi
        (hW (k, v) (by simp))
      simp only [run, h1, bind, Except.bind] at h
      cases hr : run c (.live l1) xs with
      | error e => simp [hr] at h
      | ok r =>
        obtain ⟨s2, d2⟩ := r
        simp only [hr] at h
        injection h with h; injection h with e1 e2
        subst e1 e2
        obtain ⟨l', W', j1, j2, j3⟩ := ih (fun w => W w ∨ w = k) l1 d2 h2 (by
          rintro e he w (hw | rfl)
          · exact hW e (by simp [he]) w hw
          · exact ho2.1 e he) ⟨fun e he => ho1 e (by simp [he]), ho2.2⟩ hr
        refine ⟨l', W', j1, j2, ?_⟩
        simp only [freed_append, given, writesOf, List.flatMap_cons]
        classical
        rw [List.perm_iff_count] at h4 j3 ⊢
        intro z
        have a1 := h4 z
        have a2 := j3 z
        simp only [List.count_append, given] at a1 a2 ⊢
        omega
    | unset k =>
      simp only [writesOf] at hW ho
      simp only [run, bind, Except.bind] at h
      cases hu : unset c (.live l) k with
      | error e => simp [hu] at h
      | ok r =>
        obtain ⟨s1, d1⟩ := r
        simp only [hu] at h
        obtain ⟨l1, rfl, h2, h4, -⟩ := unset_live c hc W l k s1 d1 hi hu
        cases hr : run c (.live l1) xs with
        | error e => simp [hr] at h
        | ok r =>
          obtain ⟨s2, d2⟩ := r
          simp only [hr] at h
          injection h with h; injection h with e1 e2
          subst e1 e2
          obtain ⟨l', W', j1, j2, j3⟩ := ih W l1 d2 h2 hW ho hr
          refine ⟨l', W', j1, j2, ?_⟩
          simp only [freed_append, writesOf]
          classical
          rw [List.perm_iff_count] at h4 j3 ⊢
          intro z
          have a1 := h4 z
          have a2 := j3 z
          simp only [List.count_append] at a1 a2 ⊢
          omega

theorem destroy_live (c : Calls V) (hc : c.dtor = true) (l : HSList (Node V)) :
    destroy c (.live l) = .ok ((dropList l.items).map some) := by
  simp [destroy, Store.list, bind, Except.bind, dropped, hc]

theorem values_live (l : HSList (Node V)) :
    ∃ vs, values (.live l) = .ok vs ∧ vs.Perm (dropList l.items) := by
  refine ⟨_, rfl, (RTree.valuesWalk_perm _).trans ?_⟩
  rw [RTree.pairs_eq, Radix.preL_vals]

/-! ## clone -/

theorem inv_cloneHS (f : V → V) {l : HSList (Node V)} {W : Bytes → Prop} (hi : Inv W [] l) :
    Inv W [] (HSList.ofAppends (RTree.cloneList f l.items)) := by
  rw [RTree.ofAppends_eq, RTree.cloneList_eq]
  have h1 := RTree.cloneHS_wf f hi.wf
  have h2 := RTree.cloneHS_tok f (fun _ => False) [] hi.wf
  have h3 := RTree.cloneHS_alln f _ (fun _ _ h => h) hi.all
  rw [RTree.cloneHS] at h1 h2 h3
  exact ⟨by simpa using h1, by simpa using h2, by simpa using h3⟩

theorem clone_spec (c : Calls V) (f : V → V) (hf : c.cloner = some f) (l : HSList (Node V))
    (W : Bytes → Prop) (hi : Inv W [] l) :
    clone c (.live l) = .error .nullDeref ∨
    ∃ l', clone c (.live l) = .ok (.live l') ∧ Inv W [] l' ∧
      ∀ k, listLk l'.items k = (listLk l.items k).map f := by
  simp only [clone, Store.list, bind, Except.bind, hf]
  split
  · refine .inr ⟨_, rfl, inv_cloneHS f hi, fun k => ?_⟩
    rw [RTree.ofAppends_eq, RTree.cloneList_eq]
    exact RTree.listLk_clone f hi.wf k
  · exact .inl rfl

/-- Nodes of the first level hold keys written, with their values. -/
def Flat (W : Bytes → Prop) (l : HSList (Node V)) : Prop :=
  ∀ n ∈ l.items, W n.key ∧ n.data.isSome = true

theorem setLoop_flat (c : Calls V) (hc : c.dtor = true) (v : Option V) (hv : v.isSome = true)
    (W W' : Bytes → Prop) (fuel : Nat) (k : Bytes) (l l' : HSList (Node V)) (d : List (Option V))
    (hk : k ≠ []) (hf : k.length ≤ fuel) (hi : Inv W' [] l) (hl : Flat W l)
    (hW : ∀ w, W w → w = k ∨ w.head? ≠ k.head?) (h : setLoop c v fuel [] k l = .ok (l', d)) :
    Flat (fun w => W w ∨ w = k) l' := by
  cases fuel with
  | zero => cases k <;> simp_all
  | succ fuel =>
    cases k with
    | nil => simp at hk
    | cons b bs =>
      have bad : ∀ n ∈ l.items, n.key.head? = some b → n.key = b :: bs := by
        intro n hn hh
        rcases hW _ (hl n hn).1 with e | e
        · exact e
        · exact (e (by rw [hh]; rfl)).elim
      cases set_step c v fuel [] b bs l hi.nil with
      | fresh l1 h0 h1 h2 h3 =>
        rw [h3] at h; injection h with h; injection h with e1 e2; subst e1
        intro n hn
        rw [h1.mem_iff, List.mem_cons] at hn
        rcases hn with rfl | hn
        · exact ⟨.inr rfl, hv⟩
        · exact ⟨.inl (hl n hn).1, (hl n hn).2⟩
      | both l1 n0 r h1 h2 h3 h4 h5 =>
        rw [h5 hc] at h; injection h with h; injection h with e1 e2; subst e1
        intro n hn
        rw [h3.mem_iff, List.mem_cons] at hn
        rcases hn with rfl | hn
        · exact ⟨.inr h1, hv⟩
        · have := hl n (h2.mem_iff.2 (by simp [hn]))
          exact ⟨.inl this.1, this.2⟩
      | prefixed n a as h1 h2 =>
        have := bad n h1 (by rw [h2]; rfl)
        rw [h2] at this; simp at this
      | deeper n r a as f h1 h2 h3 h4 h5 h6 =>
        have := bad n (h3.mem_iff.2 (by simp)) h2
        rw [this] at h1; simp at h1
      | split l1 n r p a b' as bs' subs h1 h2 h3 h4 h5 h6 h7 h8 h9 =>
        have := bad n (h4.mem_iff.2 (by simp)) (by rw [h1]; rfl)
        rw [h1, h2] at this
        simp at this
        exact (h3 this.1).elim

theorem sets_flat (c : Calls V) (hc : c.dtor = true) (ws : List (Bytes × Option V)) (W : Bytes → Prop)
    (l l' : HSList (Node V)) (d : List (Option V)) (hi : Inv W [] l) (hl : Flat W l)
    (hne : ∀ e ∈ ws, e.1 ≠ []) (hv : ∀ e ∈ ws, (made c e.2).isSome = true)
    (hW : ∀ e ∈ ws, ∀ w, W w → w = e.1 ∨ w.head? ≠ e.1.head?)
    (hp : ws.Pairwise fun a b => a.1 = b.1 ∨ a.1.head? ≠ b.1.head?)
    (h : sets c (.live l) ws = .ok (.live l', d)) :
    ∀ n ∈ l'.items, n.data.isSome = true := by
  induction ws generalizing W l d with
  | nil =>
    simp only [sets, List.map_nil, run] at h
    injection h with h; injection h with h1 h2; injection h1 with h1
    subst h1
    exact fun n hn => (hl n hn).2
  | cons e ws ih =>
    obtain ⟨k, v⟩ := e
    rw [List.pairwise_cons] at hp
    have npp : ∀ w, W w → ¬ ProperPrefix k w := by
      rintro w hw ⟨b, bs, e⟩
      rcases hW (k, v) (by simp) w hw with h1 | h1
      · rw [h1] at e; simp at e
      · apply h1; rw [e]
        have := hne (k, v) (by simp)
        cases k with
        | nil => exact (this rfl).elim
        | cons _ _ => rfl
    obtain ⟨l1, d1, h1, h2, -, -⟩ := set_spec c hc W l k v (hne (k, v) (by simp)) hi npp
    have h1' : setLoop c (made c v) k.length [] k l = .ok (l1, d1) := by
      have h1 := h1
      simp only [set, Store.list, bind, Except.bind] at h1
      show setLoop c (newData c v) k.length [] k l = .ok (l1, d1)
      cases hs : setLoop c (newData c v) k.length [] k l with
      | error e => simp [hs] at h1
      | ok r =>
        obtain ⟨r1, r2⟩ := r
        simp only [hs] at h1
        injection h1 with h1; injection h1 with e1 e2; injection e1 with e1
        rw [e1, e2]
    simp only [sets, List.map_cons, run, h1, bind, Except.bind] at h
    cases hr : run c (.live l1) (ws.map fun e => Call.set e.1 e.2) with
    | error e => simp [hr] at h
    | ok r =>
      obtain ⟨s2, d2⟩ := r
      simp only [hr] at h
      injection h with h; injection h with e1 e2
      subst e1
      refine ih (fun w => W w ∨ w = k) l1 d2 h2
        (setLoop_flat c hc _ (hv (k, v) (by simp)) W W _ k l l1 d1 (hne (k, v) (by simp)) (Nat.le_refl _) hi
          hl (hW (k, v) (by simp)) h1')
        (fun e he => hne e (by simp [he])) (fun e he => hv e (by simp [he])) ?_ hp.2 hr
      rintro e he w (hw | rfl)
      · exact hW e (by simp [he]) w hw
      · exact hp.1 e he

theorem matchFrom_self (k : Bytes) (x : Nat) : ∃ y, RTree.matchFrom k k x = .both y := by
  induction k generalizing x with
  | nil => exact ⟨x, rfl⟩
  | cons b bs ih => simpa [RTree.matchFrom] using ih (x + 1)

end BRadix
end Comps
