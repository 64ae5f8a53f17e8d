import Verif.Lemmas.RTreeCopy
import Verif.Spec.FMap

/-!
# Lemmas: sequences of writes, unite as a sequence of writes, unset
-/

namespace Comps.RTree
open Comps.Spec
variable {V : Type}

theorem get_eq {t : RTree V} (h : WF t.subnodes) (k : Bytes) :
    t.get k = listLk t.subnodes.items k := getLoop_eq _ _ _ h (Nat.le_refl _)

theorem set_wf (lt : UInt8 → UInt8 → Bool) {t : RTree V} (h : WF t.subnodes) (k : Bytes)
    (v : Option V) : WF (t.set lt k v).subnodes := setLoop_wf _ _ _ _ _ h

theorem set_get (lt : UInt8 → UInt8 → Bool) {t : RTree V} (h : WF t.subnodes) (k : Bytes)
    (hk : k ≠ []) (v : Option V) : (t.set lt k v).get k = v := by
  rw [get_eq (set_wf lt h k v)]
  exact setLoop_get lt v _ k _ h hk (Nat.le_refl _)

theorem set_frame (lt : UInt8 → UInt8 → Bool) {P : Bytes → Prop} {t : RTree V}
    (h : WF t.subnodes) (ht : TOK P [] t.subnodes) (k : Bytes) (v : Option V)
    (hP : ∀ k', ProperPrefix k k' → ¬ P k') (k' : Bytes) (hk' : k' ≠ k) :
    (t.set lt k v).get k' = t.get k' := by
  rw [get_eq (set_wf lt h k v), get_eq h]
  exact setLoop_frame lt v P _ k [] _ h ht (fun a as => hP _ ⟨a, as, by simp⟩) k' hk'

theorem set_tok (lt : UInt8 → UInt8 → Bool) {P : Bytes → Prop} {t : RTree V}
    (h : WF t.subnodes) (ht : TOK P [] t.subnodes) (k : Bytes) (v : Option V)
    (hP : ∀ p, p <+: k → P p) : TOK P [] (t.set lt k v).subnodes :=
  setLoop_tok lt v P _ k [] _ h ht (by simpa using hP)

theorem setAll_wf (lt : UInt8 → UInt8 → Bool) (calls : List (Bytes × Option V)) {t : RTree V}
    (h : WF t.subnodes) : WF (setAll lt t calls).subnodes := by
  induction calls generalizing t with
  | nil => exact h
  | cons e es ih => exact ih (set_wf lt h _ _)

theorem setAll_tok (lt : UInt8 → UInt8 → Bool) (P : Bytes → Prop)
    (calls : List (Bytes × Option V)) {t : RTree V} (h : WF t.subnodes)
    (ht : TOK P [] t.subnodes) (hP : ∀ e ∈ calls, ∀ p, p <+: e.1 → P p) :
    TOK P [] (setAll lt t calls).subnodes := by
  induction calls generalizing t with
  | nil => exact ht
  | cons e es ih =>
    exact ih (set_wf lt h _ _) (set_tok lt h ht _ _ (hP e (by simp)))
      fun e' he' => hP e' (by simp [he'])

/-- A sequence of writes acts as on a map when no key is a proper prefix of a protected or
earlier written key. -/
theorem setAll_get (lt : UInt8 → UInt8 → Bool) (calls : List (Bytes × Option V))
    (P : Bytes → Prop) {t : RTree V} (h : WF t.subnodes) (ht : TOK P [] t.subnodes)
    (hne : ∀ e ∈ calls, e.1 ≠ [])
    (hP : ∀ e ∈ calls, ∀ k', ProperPrefix e.1 k' → ¬ P k')
    (hord : calls.Pairwise fun a b => ¬ ProperPrefix b.1 a.1) (k : Bytes) :
    (setAll lt t calls).get k = FMap.writes t.get calls k := by
  induction calls generalizing t P with
  | nil => rfl
  | cons e es ih =>
    rw [List.pairwise_cons] at hord
    have hstep : (t.set lt e.1 e.2).get = FMap.upd t.get e.1 e.2 := by
      funext k'
      simp only [FMap.upd]
      split
      · rename_i hk; subst hk; exact set_get lt h _ (hne e (by simp)) _
      · rename_i hk; exact set_frame lt h ht _ _ (hP e (by simp)) _ hk
    have hP' : TOK (fun b => P b ∨ b <+: e.1) [] (t.set lt e.1 e.2).subnodes :=
      set_tok lt h (ht.mono fun _ => Or.inl) _ _ fun p hp => Or.inr hp
    have := ih (fun b => P b ∨ b <+: e.1) (set_wf lt h e.1 e.2) hP'
      (fun e' he' => hne e' (by simp [he'])) ?_ hord.2
    · rw [hstep] at this
      exact this
    · rintro e' he' k' ⟨b, bs, rfl⟩ (hp | hp)
      · exact hP e' (by simp [he']) _ ⟨b, bs, rfl⟩ hp
      · obtain ⟨r, hr⟩ := hp
        exact hord.1 e' he' ⟨b, bs ++ r, by rw [← hr]; simp⟩

theorem writes_append (m : FMap V) (a b : List (Bytes × Option V)) :
    m.writes (a ++ b) = (m.writes a).writes b := by
  induction a generalizing m with
  | nil => rfl
  | cons e es ih => exact ih _

theorem writes_not_mem (m : FMap V) (a : List (Bytes × Option V)) (k : Bytes)
    (h : ∀ e ∈ a, e.1 ≠ k) : m.writes a k = m k := by
  induction a generalizing m with
  | nil => rfl
  | cons e es ih =>
    simp only [FMap.writes]
    rw [ih _ fun e' he' => h e' (by simp [he'])]
    simp only [FMap.upd]
    rw [if_neg fun he => h e (by simp) (Eq.symm he)]

theorem writes_mem (m : FMap V) (a : List (Bytes × Option V)) (k : Bytes) (v : Option V)
    (hm : (k, v) ∈ a) (hn : a.Pairwise fun x y => x.1 ≠ y.1) : m.writes a k = v := by
  induction a generalizing m with
  | nil => simp at hm
  | cons e es ih =>
    rw [List.pairwise_cons] at hn
    rcases List.mem_cons.1 hm with rfl | hm
    · simp only [FMap.writes]
      rw [writes_not_mem _ _ _ fun e' he' => Ne.symm (hn.1 e' he')]
      simp [FMap.upd]
    · exact ih _ hm hn.2

/-! ### Order of the `set` calls made by unite -/

theorem mem_uniteCalls (fuel : Nat) (q : List (Bytes × List (Node V))) (k : Bytes) (v : V)
    (h : (k, v) ∈ uniteCalls fuel q) : ∃ e ∈ q, ∃ m ∈ e.2, e.1 ++ m.key <+: k := by
  induction fuel generalizing q with
  | zero => simp [uniteCalls] at h
  | succ fuel ih =>
    cases q with
    | nil => simp [uniteCalls] at h
    | cons e es =>
      obtain ⟨k0, l⟩ := e
      simp only [uniteCalls, List.mem_append, List.mem_flatMap] at h
      rcases h with ⟨n, hn, hm⟩ | h
      · obtain ⟨rfl, -⟩ := mem_emit.1 hm
        exact ⟨(k0, l), by simp, n, hn, List.prefix_refl _⟩
      · obtain ⟨e, he, m, hm, hp⟩ := ih _ h
        rcases List.mem_append.1 he with he | he
        · exact ⟨e, by simp [he], m, hm, hp⟩
        · obtain ⟨n, hn, rfl⟩ := List.mem_map.1 he
          refine ⟨(k0, l), by simp, n, (List.mem_filter.1 hn).1, ?_⟩
          exact (List.prefix_append _ _).trans hp

/-- Neither key is a prefix of the other. -/
def Incomp (a b : Bytes) : Prop := ¬ a <+: b ∧ ¬ b <+: a

theorem prefix_comparable {a b c : Bytes} (h1 : a <+: c) (h2 : b <+: c) : a <+: b ∨ b <+: a :=
  List.prefix_or_prefix_of_prefix h1 h2

theorem incomp_heads {k a b : Bytes} (ha : a ≠ []) (hb : b ≠ []) (h : a.head? ≠ b.head?) :
    Incomp (k ++ a) (k ++ b) := by
  constructor
  · rw [List.prefix_append_right_inj]; exact fun e => h (head_of_prefix ha e)
  · rw [List.prefix_append_right_inj]; exact fun e => h (head_of_prefix hb e).symm

theorem incomp_extend {a b r : Bytes} (h : Incomp a b) : Incomp a (b ++ r) := by
  constructor
  · intro e
    rcases prefix_comparable e (List.prefix_append b r) with h1 | h1
    · exact h.1 h1
    · exact h.2 h1
  · exact fun e => h.2 ((List.prefix_append _ _).trans e)

theorem uniteCalls_order (fuel : Nat) (q : List (Bytes × List (Node V)))
    (hwf : ∀ e ∈ q, ∃ t, WF ⟨e.2, t⟩) (hq : q.Pairwise fun a b => Incomp a.1 b.1) :
    (uniteCalls fuel q).Pairwise fun a b => ¬ b.1 <+: a.1 := by
  induction fuel generalizing q with
  | zero => simp [uniteCalls]
  | succ fuel ih =>
    cases q with
    | nil => simp [uniteCalls]
    | cons e es =>
      obtain ⟨k, l⟩ := e
      rw [List.pairwise_cons] at hq
      obtain ⟨t, hl⟩ := hwf (k, l) (by simp)
      have hne := hl.ne
      have hpw := hl.pw
      simp only at hne hpw
      simp only [uniteCalls]
      rw [List.pairwise_append]
      refine ⟨?_, ?_, ?_⟩
      · rw [List.pairwise_flatMap]
        refine ⟨fun n _ => by cases n.data <;> simp [emit], ?_⟩
        refine hpw.imp_of_mem ?_
        rintro n m hn hm hnm ⟨x, v⟩ hx ⟨y, w⟩ hy
        obtain ⟨rfl, -⟩ := mem_emit.1 hx
        obtain ⟨rfl, -⟩ := mem_emit.1 hy
        exact (incomp_heads (hne n hn) (hne m hm) hnm).2
      · apply ih
        · intro e he
          rcases List.mem_append.1 he with he | he
          · exact hwf e (by simp [he])
          · obtain ⟨n, hn, rfl⟩ := List.mem_map.1 he
            exact ⟨n.tail, hl.sub n (List.mem_filter.1 hn).1⟩
        · rw [List.pairwise_append]
          refine ⟨hq.2, ?_, ?_⟩
          · rw [List.pairwise_map]
            refine (hpw.filter _).imp_of_mem ?_
            intro n m hn hm hnm
            exact incomp_heads (hne n (List.mem_filter.1 hn).1) (hne m (List.mem_filter.1 hm).1) hnm
          · intro e he f hf
            obtain ⟨n, hn, rfl⟩ := List.mem_map.1 hf
            have := hq.1 e he
            exact incomp_extend ⟨this.2, this.1⟩
      · rintro ⟨x, v⟩ hx ⟨y, w⟩ hy hxy
        obtain ⟨n, hn, hx⟩ := List.mem_flatMap.1 hx
        obtain ⟨rfl, -⟩ := mem_emit.1 hx
        obtain ⟨e, he, m, hm, hp⟩ := mem_uniteCalls _ _ _ _ hy
        simp only at hxy
        have hp' := hp.trans hxy
        rcases List.mem_append.1 he with he | he
        · have := hq.1 e he
          have h1 : e.1 <+: k ++ n.key := (List.prefix_append _ _).trans hp'
          rcases prefix_comparable h1 (List.prefix_append k n.key) with h2 | h2
          · exact this.2 h2
          · exact this.1 h2
        · obtain ⟨n', hn', rfl⟩ := List.mem_map.1 he
          have hn'l := (List.mem_filter.1 hn').1
          simp only [List.append_assoc] at hp' hm
          rw [List.prefix_append_right_inj] at hp'
          have hm2 : m.key ≠ [] := (hl.sub n' hn'l).ne m hm
          have hh : n'.key.head? = n.key.head? :=
            head_of_prefix (hne n' hn'l) ((List.prefix_append _ _).trans hp')
          have heq : n' = n := by
            by_cases hnn : n' = n
            · exact hnn
            · exfalso
              have h2 : ∀ {l : List (Node V)}, l.Pairwise (fun a b => a.key.head? ≠ b.key.head?) →
                  n' ∈ l → n ∈ l → n' ≠ n → n'.key.head? ≠ n.key.head? := by
                intro l hp h1 h2 h3
                induction l with
                | nil => simp at h1
                | cons z zs ih =>
                  rw [List.pairwise_cons] at hp
                  rcases List.mem_cons.1 h1 with rfl | h1'
                  · rcases List.mem_cons.1 h2 with rfl | h2'
                    · exact absurd rfl h3
                    · exact hp.1 n h2'
                  · rcases List.mem_cons.1 h2 with rfl | h2'
                    · exact Ne.symm (hp.1 n' h1')
                    · exact ih hp.2 h1' h2'
              exact h2 hpw hn'l hn hnn hh
          subst heq
          have := hp'.length_le
          rw [List.length_append] at this
          exact hm2 (List.length_eq_zero_iff.1 (by omega))

/-! ### unset -/

theorem ite_ok {α : Type} {b : Bool} {f : Fault} {x : α} {o : Option α}
    (h : (if b then (.error f : Res (Option α)) else .ok (some x)) = .ok o) : o = some x := by
  cases b <;> simp at h; exact h.symm

/-- What a successful `unset` that found its key does to a list. -/
theorem unsetLoop_found (fuel : Nat) (nested : Bool) (k : Bytes) (l s : HSList (Node V))
    (hl : WF l) (h : unsetLoop fuel nested k l = .ok (some s)) :
    WF s ∧ listLk s.items k = none ∧
    (∀ P pre, TOK P pre l → TOK P pre s) ∧
    (∀ Q : Bytes → Option V → Prop, (∀ b d, Q b d → Q b none) →
      ∀ pre, AllN Q pre l → AllN Q pre s) ∧
    (∀ pre, TOK (fun _ => False) pre l → ∀ k', k' ≠ k → listLk s.items k' = listLk l.items k') := by
  induction fuel generalizing nested k l s with
  | zero => simp [unsetLoop] at h
  | succ fuel ih =>
    cases k with
    | nil => simp [unsetLoop] at h
    | cons c cs =>
      simp only [unsetLoop] at h
      cases hfd : findAt c l.items with
      | none => simp [hfd] at h
      | some r =>
        obtain ⟨i, n⟩ := r
        obtain ⟨pre, post, hitems, hi, hh⟩ := findAt_some hfd
        subst hi
        have hm := matchKey_spec cs hh
        have hp : l.items.Perm (n :: (pre ++ post)) := hitems ▸ perm_mid pre post n
        have hset : ∀ n', (l.setAt pre.length n').items.Perm (n' :: (pre ++ post)) := by
          intro n'
          simp only [HSList.setAt, hitems, set_mid]
          exact perm_mid _ _ _
        have hnl : n ∈ l.items := by rw [hitems]; simp
        have hrl : ∀ m ∈ pre ++ post, m ∈ l.items := fun m hm => hp.mem_iff.2 (by simp [hm])
        have hs := perm_wf_sub hl hp
        have hheads := heads_perm hp hl.heads
        simp only [hfd] at h
        cases hmk : matchKey n.key (c :: cs) with
        | both y =>
          simp only [hmk] at h hm
          have h := Option.some.inj (ite_ok h)
          · cases hnt : n.tail with
            | true =>
              simp only [hnt, if_true] at h
              subst h
              have hps := hset (Node.mk n.key none n.sub true)
              have hsh : Heads (Node.mk n.key none n.sub true :: (pre ++ post)) :=
                heads_replace hheads (by simp [hm]) (by simp)
              have hsub : (Node.mk n.key none n.sub true).subnodes = n.subnodes := by
                simp [Node.subnodes, hnt]
              refine ⟨?_, ?_, ?_, ?_, ?_⟩
              · refine wf_of_perm hps hsh (by simp) ?_
                simp only [List.mem_cons, forall_eq_or_imp, hsub]
                exact hs
              · rw [listLk_perm hps (heads_perm hps.symm hsh), listLk_cons]
                rw [key_mk, if_pos (by simp [hm]), nodeLk_eq]
                simp [hm]
              · intro P p ht
                refine tok_of_perm hps ?_ ?_
                · intro hf
                  simp only [List.mem_cons, forall_eq_or_imp, key_mk]
                  exact ⟨ht.top hf n hnl, fun m hm => ht.top hf m (hrl m hm)⟩
                · simp only [List.mem_cons, forall_eq_or_imp, key_mk, hsub]
                  exact ⟨ht.sub n hnl, fun m hm => ht.sub m (hrl m hm)⟩
              · intro Q hQ p ht
                refine alln_of_perm hps ?_ ?_
                · simp only [List.mem_cons, forall_eq_or_imp, key_mk, data_mk]
                  exact ⟨hQ _ _ (ht.top n hnl), fun m hm => ht.top m (hrl m hm)⟩
                · simp only [List.mem_cons, forall_eq_or_imp, key_mk, hsub]
                  exact ⟨ht.sub n hnl, fun m hm => ht.sub m (hrl m hm)⟩
              · intro p ht k' hk'
                rw [listLk_perm hps (heads_perm hps.symm hsh), listLk_perm hp hl.heads]
                refine listLk_replace (by simp) fun _ => ?_
                rw [nodeLk_eq, nodeLk_eq]
                simp only [key_mk, data_mk, sub_mk]
                have hk'' : ¬ k' = n.key := by rw [hm]; exact hk'
                rw [if_neg hk'', if_neg hk'']
            | false =>
              simp only [hnt, Bool.false_eq_true, if_false] at h
              subst h
              have hps : (l.removeAt pre.length).items = pre ++ post := by
                simp only [HSList.removeAt, hitems, eraseIdx_mid]
              have htl : (l.removeAt pre.length).tailSet = (l.tailSet && !(pre ++ post).isEmpty) := by
                simp only [HSList.removeAt, hitems, eraseIdx_mid]
              have hsh : Heads (pre ++ post) := by rw [heads_cons] at hheads; exact hheads.2.2
              have hnone : listLk (pre ++ post) (c :: cs) = none := by
                apply listLk_none
                rw [heads_cons] at hheads
                intro m hmm e
                exact hheads.2.1 m hmm (by rw [e, hm])
              refine ⟨?_, ?_, ?_, ?_, ?_⟩
              · refine wf_of (by rw [hps]; exact hsh) ?_ ?_
                · rw [htl, hps]
                  intro e
                  simp at e
                  cases hpp : pre ++ post with
                  | nil => simp at hpp; simp [hpp] at e
                  | cons => simp
                · rw [hps]; exact hs.2
              · rw [hps]; exact hnone
              · intro P p ht
                refine .mk _ _ ?_ ?_
                · rw [htl, hps]
                  intro e m hmm
                  cases hlt : l.tailSet with
                  | false => exact ht.top hlt m (hrl m hmm)
                  | true =>
                    rw [hlt] at e
                    cases hpp : pre ++ post with
                    | nil => rw [hpp] at hmm; simp at hmm
                    | cons => rw [hpp] at e; simp at e
                · rw [hps]; exact fun m hmm => ht.sub m (hrl m hmm)
              · intro Q hQ p ht
                refine .mk _ _ ?_ ?_
                · rw [hps]; exact fun m hmm => ht.top m (hrl m hmm)
                · rw [hps]; exact fun m hmm => ht.sub m (hrl m hmm)
              · intro p ht k' hk'
                rw [hps, listLk_perm hp hl.heads, listLk_cons]
                split
                · rename_i hhd
                  have h1 : listLk (pre ++ post) k' = none := by
                    apply listLk_none
                    rw [heads_cons] at hheads
                    intro m hmm e
                    exact hheads.2.1 m hmm (by rw [e, hhd])
                  have hse : n.sub = [] := by
                    have := (ht.sub n hnl).top (by simpa using hnt)
                    simp only [subnodes_items] at this
                    exact List.eq_nil_iff_forall_not_mem.2 this
                  rw [h1, nodeLk_eq]
                  have hk'' : ¬ k' = n.key := by rw [hm]; exact hk'
                  rw [if_neg hk'', hse]
                  simp [listLk]
                · rfl
        | keyEnds y => simp [hmk] at h
        | differ y => simp [hmk] at h
        | nodeEnds y =>
          simp only [hmk] at h hm
          obtain ⟨⟨a, as, h1⟩, rfl⟩ := hm
          have hd : (c :: cs).drop n.key.length = a :: as := by rw [h1]; simp
          rw [hd] at h
          cases hu : unsetLoop fuel true (a :: as) n.subnodes with
          | error f => simp [hu] at h
          | ok o =>
            cases o with
            | none => simp [hu] at h
            | some s' =>
              simp only [hu, Except.ok.injEq, Option.some.injEq] at h
              subst h
              obtain ⟨i1, i2, i3, i4, i5⟩ := ih true (a :: as) n.subnodes s' hs.1 hu
              have hps := hset (Node.ofList n.key n.data s')
              have hne : n.key ≠ [] := hl.ne n hnl
              have hsh : Heads (Node.ofList n.key n.data s' :: (pre ++ post)) :=
                heads_replace hheads hne (by simp)
              refine ⟨?_, ?_, ?_, ?_, ?_⟩
              · refine wf_of_perm hps hsh (by simp) ?_
                simp only [List.mem_cons, forall_eq_or_imp, ofList_subnodes]
                exact ⟨i1, hs.2⟩
              · rw [listLk_perm hps (heads_perm hps.symm hsh), listLk_cons, ofList_key,
                  if_pos (by simpa using hh), nodeLk_eq]
                simp only [ofList_key, ofList_data, ofList_sub]
                have h6 : c :: cs ≠ n.key := by
                  rw [h1]; intro h; simpa using congrArg List.length h
                have h7 : n.key <+: c :: cs := by rw [h1]; simp
                rw [if_neg h6, if_pos h7, hd]
                exact i2
              · intro P p ht
                refine tok_of_perm hps ?_ ?_
                · intro hf
                  simp only [List.mem_cons, forall_eq_or_imp, ofList_key]
                  exact ⟨ht.top hf n hnl, fun m hm => ht.top hf m (hrl m hm)⟩
                · simp only [List.mem_cons, forall_eq_or_imp, ofList_key, ofList_subnodes]
                  exact ⟨i3 _ _ (ht.sub n hnl), fun m hm => ht.sub m (hrl m hm)⟩
              · intro Q hQ p ht
                refine alln_of_perm hps ?_ ?_
                · simp only [List.mem_cons, forall_eq_or_imp, ofList_key, ofList_data]
                  exact ⟨ht.top n hnl, fun m hm => ht.top m (hrl m hm)⟩
                · simp only [List.mem_cons, forall_eq_or_imp, ofList_key, ofList_subnodes]
                  exact ⟨i4 Q hQ _ (ht.sub n hnl), fun m hm => ht.sub m (hrl m hm)⟩
              · intro p ht k' hk'
                rw [listLk_perm hps (heads_perm hps.symm hsh), listLk_perm hp hl.heads]
                refine listLk_replace (by simp) fun _ => ?_
                rw [nodeLk_eq, nodeLk_eq]
                simp only [ofList_key, ofList_data, ofList_sub]
                by_cases e1 : k' = n.key
                · rw [if_pos e1, if_pos e1]
                · rw [if_neg e1, if_neg e1]
                  by_cases e2 : n.key <+: k'
                  · rw [if_pos e2, if_pos e2]
                    obtain ⟨q, rfl⟩ := e2
                    simp only [List.drop_left]
                    refine i5 _ (ht.sub n hnl) q ?_
                    rintro rfl
                    exact hk' h1.symm
                  · rw [if_neg e2, if_neg e2]

theorem unsetLoop_missing (fuel : Nat) (nested : Bool) (k : Bytes) (l : HSList (Node V))
    (hl : WF l) (hf : k.length ≤ fuel) (h : unsetLoop fuel nested k l = .ok none) :
    listLk l.items k = none := by
  rw [← getLoop_eq fuel k l hl hf]
  induction fuel generalizing nested k l with
  | zero => rfl
  | succ fuel ih =>
    cases k with
    | nil => rfl
    | cons c cs =>
      simp only [unsetLoop] at h
      simp only [getLoop]
      cases hfd : findAt c l.items with
      | none => rfl
      | some r =>
        obtain ⟨i, n⟩ := r
        obtain ⟨pre, post, hitems, hi, hh⟩ := findAt_some hfd
        have hnl : n ∈ l.items := by rw [hitems]; simp
        have hm := matchKey_spec cs hh
        simp only [hfd] at h ⊢
        cases hmk : matchKey n.key (c :: cs) with
        | both y => simp only [hmk] at h; exact absurd (ite_ok h) (by simp)
        | keyEnds y => rfl
        | differ y => rfl
        | nodeEnds y =>
          simp only [hmk] at h hm ⊢
          obtain ⟨⟨a, as, h1⟩, rfl⟩ := hm
          have hd : (c :: cs).drop n.key.length = a :: as := by rw [h1]; simp
          rw [hd] at h ⊢
          have hne : n.key ≠ [] := hl.ne n hnl
          cases hu : unsetLoop fuel true (a :: as) n.subnodes with
          | error f => simp [hu] at h
          | ok o =>
            cases o with
            | some s' => simp [hu] at h
            | none =>
              refine ih true (a :: as) n.subnodes (hl.sub n hnl) ?_ hu
              have hlen := congrArg List.length h1
              have : 0 < n.key.length := List.length_pos_iff.2 hne
              simp only [List.length_append, List.length_cons] at hlen hf ⊢
              omega

end Comps.RTree
