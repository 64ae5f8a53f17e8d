import Verif.Lemmas.RTreeMap
import Verif.Lemmas.CSet
import Verif.Spec.DictReach

/-! # Invariants of reachable dictionaries -/

namespace Comps.RTree
open Comps.Spec
variable {V : Type}

/-- `p` is a prefix of a key in `S`. -/
def Below (S : List Bytes) (p : Bytes) : Prop := ∃ s ∈ S, p <+: s

/-- `p` is a key of `S`, or two keys of `S` part after `p`. -/
def PathIn (S : List Bytes) (p : Bytes) (_ : Option V) : Prop :=
  p ∈ S ∨ ∃ s1 ∈ S, ∃ s2 ∈ S, ∃ a b, a ≠ b ∧ p ++ [a] <+: s1 ∧ p ++ [b] <+: s2

theorem PathIn.below {S : List Bytes} {p : Bytes} {d : Option V} (h : PathIn S p d) :
    Below S p := by
  rcases h with h | ⟨s1, h1, _, _, a, _, _, h2, _⟩
  · exact ⟨p, h, List.prefix_refl _⟩
  · exact ⟨s1, h1, (List.prefix_append _ _).trans h2⟩

theorem PathIn.mono {S S' : List Bytes} (hs : ∀ s ∈ S, s ∈ S') {p : Bytes} {d : Option V}
    (h : PathIn S p d) : PathIn S' p d := by
  rcases h with h | ⟨s1, h1, s2, h2, r⟩
  · exact .inl (hs _ h)
  · exact .inr ⟨s1, hs _ h1, s2, hs _ h2, r⟩

theorem PathIn.split {S : List Bytes} {p as bs : Bytes} {a b : UInt8} {d v : Option V}
    (hab : a ≠ b) (h1 : PathIn S (p ++ b :: bs) v) (h2 : PathIn S (p ++ a :: as) d) :
    PathIn S p (none : Option V) := by
  obtain ⟨s1, m1, q1⟩ := h1.below
  obtain ⟨s2, m2, q2⟩ := h2.below
  refine .inr ⟨s1, m1, s2, m2, b, a, Ne.symm hab, ?_, ?_⟩
  · exact List.IsPrefix.trans ⟨bs, by simp⟩ q1
  · exact List.IsPrefix.trans ⟨as, by simp⟩ q2

/-- Invariants of every reachable dictionary. -/
structure Inv (S : List Bytes) (t : RTree V) : Prop where
  wf : WF t.subnodes
  tok : TOK (Below S) [] t.subnodes
  path : AllN (PathIn S) [] t.subnodes

theorem inv_set (lt : UInt8 → UInt8 → Bool) {S : List Bytes} {t : RTree V} (h : Inv S t)
    (k : Bytes) (v : Option V) (hk : PathIn S k v) : Inv S (t.set lt k v) where
  wf := set_wf lt h.wf k v
  tok := set_tok lt h.wf h.tok k v fun p hp => by
    obtain ⟨s, hs, hks⟩ := hk.below
    exact ⟨s, hs, hp.trans hks⟩
  path := by
    refine setLoop_alln lt v (PathIn S) _ k [] _ h.wf h.path hk ?_
    intro p a b as bs d e hab hq
    rw [e] at hk
    exact PathIn.split hab hk hq

theorem Inv.mono {S S' : List Bytes} (hs : ∀ s ∈ S, s ∈ S') {t : RTree V} (h : Inv S t) :
    Inv S' t where
  wf := h.wf
  tok := h.tok.mono fun _ ⟨s, m, q⟩ => ⟨s, hs _ m, q⟩
  path := h.path.mono fun _ _ q => q.mono hs

theorem inv_setAll (lt : UInt8 → UInt8 → Bool) {S : List Bytes} (calls : List (Bytes × Option V))
    {t : RTree V} (h : Inv S t) (hc : ∀ e ∈ calls, PathIn S e.1 e.2) :
    Inv S (setAll lt t calls) := by
  induction calls generalizing t with
  | nil => exact h
  | cons e es ih =>
    exact ih (inv_set lt h e.1 e.2 (hc e (by simp))) fun e' he' => hc e' (by simp [he'])

theorem inv_empty (n : Nat) : Inv [] (⟨HSList.empty, n⟩ : RTree V) :=
  ⟨wf_empty, tok_empty _ _, alln_empty _ _⟩

theorem alln_preL {Q : Bytes → Option V → Prop} {l : HSList (Node V)} {pre : Bytes}
    (h : AllN Q pre l) : ∀ e ∈ preL pre l.items, Q e.1 (some e.2) := by
  induction h with
  | mk pre l h1 h2 ih =>
    intro e he
    rw [preL_eq, List.mem_flatMap] at he
    obtain ⟨n, hn, he⟩ := he
    rw [preN_eq, List.mem_append] at he
    obtain ⟨k, v⟩ := e
    rcases he with he | he
    · obtain ⟨rfl, hd⟩ := mem_emit.1 he
      rw [← hd]
      exact h1 n hn
    · exact ih n hn _ he

/-- The writes made by `unite`. -/
def uniteWrites (t : RTree V) : List (Bytes × V) :=
  uniteCalls (listCount t.subnodes.items + 1) [([], t.subnodes.items)]

theorem unite_eq (lt : UInt8 → UInt8 → Bool) (t1 t2 : RTree V) :
    t1.unite lt t2 = setAll lt t1 (asWrites (uniteWrites t2)) := uniteLoop_eq _ _ _ _

theorem uniteWrites_perm (t : RTree V) : (uniteWrites t).Perm t.pairs := by
  rw [pairs_eq]
  have := uniteCalls_perm (listCount t.subnodes.items + 1) [([], t.subnodes.items)] (by
    simp [qBound]; omega)
  simpa [uniteWrites] using this

theorem uniteWrites_order {t : RTree V} (h : WF t.subnodes) :
    (uniteWrites t).Pairwise fun a b => ¬ b.1 <+: a.1 :=
  uniteCalls_order _ _ (fun e he => by
    rw [List.mem_singleton] at he; subst he; exact ⟨_, h⟩) (by simp)

theorem reach_inv {lt : UInt8 → UInt8 → Bool} {S : List Bytes} {t : RTree V}
    (h : Reach lt S t) : Inv S t := by
  induction h with
  | create => exact inv_empty _
  | @set S t k v _ ih =>
    exact inv_set lt (ih.mono fun s hs => by simp [hs]) k v (.inl (by simp))
  | @unset S t t' k _ hu ih =>
    simp only [unset] at hu
    split at hu
    · simp at hu
    · simp at hu; subst hu; exact ih
    · rename_i s hs
      simp at hu; subst hu
      obtain ⟨h1, -, h3, h4, -⟩ := unsetLoop_found _ _ _ _ _ ih.wf hs
      exact ⟨h1, h3 _ _ ih.tok, h4 _ (fun _ _ h => h) _ ih.path⟩
  | clear _ _ => exact inv_empty _
  | @clone S t f _ ih =>
    refine ⟨?_, ?_, ?_⟩
    · rw [clone_subnodes]; exact cloneHS_wf f ih.wf
    · rw [clone_subnodes]; exact cloneHS_tok f _ _ ih.wf
    · rw [clone_subnodes]; exact cloneHS_alln f _ (fun _ _ h => h) ih.path
  | @copy S t f _ ih =>
    refine ⟨?_, ?_, ?_⟩
    · rw [copy_subnodes]; exact cloneHS_wf f ih.wf
    · rw [copy_subnodes]; exact cloneHS_tok f _ _ ih.wf
    · rw [copy_subnodes]; exact cloneHS_alln f _ (fun _ _ h => h) ih.path
  | @unite S t S' t' _ _ ih ih' =>
    rw [unite_eq]
    refine inv_setAll lt _ (ih.mono fun s hs => by simp [hs]) ?_
    intro e he
    simp only [asWrites, List.mem_map] at he
    obtain ⟨e', he', rfl⟩ := he
    have hm := (uniteWrites_perm t').mem_iff.1 he'
    rw [pairs_eq] at hm
    exact PathIn.mono (fun s hs => by simp [hs]) (alln_preL ih'.path _ hm)

/-! ## Listings -/

theorem mem_pairs {t : RTree V} (h : WF t.subnodes) (k : Bytes) (v : V) :
    (k, v) ∈ t.pairs ↔ t.get k = some v := by
  rw [pairs_eq, mem_preL h, get_eq h]
  simp

theorem pairs_nodup {t : RTree V} (h : WF t.subnodes) :
    t.pairs.Pairwise fun a b => a.1 ≠ b.1 := by
  rw [pairs_eq]; exact preL_nodup h _

theorem keys_nodup {t : RTree V} (h : WF t.subnodes) : t.keys.Nodup := by
  rw [keys, List.Nodup, List.pairwise_map]
  exact pairs_nodup h

theorem mem_keys {t : RTree V} (h : WF t.subnodes) (k : Bytes) :
    k ∈ t.keys ↔ t.get k ≠ none := by
  simp only [keys, List.mem_map]
  constructor
  · rintro ⟨⟨k', v⟩, hm, rfl⟩
    rw [mem_pairs h] at hm
    simp [hm]
  · intro hne
    cases hg : t.get k with
    | none => exact absurd hg hne
    | some v => exact ⟨(k, v), (mem_pairs h k v).2 hg, rfl⟩

/-! ## unite as a map -/

theorem asWrites_nodup {l : List (Bytes × V)} (h : l.Pairwise fun a b => a.1 ≠ b.1) :
    (asWrites l).Pairwise fun a b => a.1 ≠ b.1 := by
  rw [asWrites, List.pairwise_map]; exact h

theorem unite_get {lt : UInt8 → UInt8 → Bool} {P : Bytes → Prop} {t1 t2 : RTree V}
    (h1 : WF t1.subnodes) (ht : TOK P [] t1.subnodes) (h2 : WF t2.subnodes)
    (hP : ∀ k ∈ t2.keys, ∀ k', ProperPrefix k k' → ¬ P k') (k : Bytes) :
    (t1.unite lt t2).get k = FMap.merge t1.get t2.get k := by
  have hperm := uniteWrites_perm t2
  have hnd : (uniteWrites t2).Pairwise fun a b => a.1 ≠ b.1 :=
    (List.Perm.pairwise_iff (fun h => Ne.symm h) hperm).2 (pairs_nodup h2)
  have hkey : ∀ e ∈ uniteWrites t2, t2.get e.1 = some e.2 := fun e he =>
    (mem_pairs h2 _ _).1 (hperm.mem_iff.1 he)
  rw [unite_eq, setAll_get lt _ P h1 ht]
  · simp only [FMap.merge]
    cases hg : t2.get k with
    | none =>
      simp only [Option.none_or]
      apply writes_not_mem
      intro e he hek
      simp only [asWrites, List.mem_map] at he
      obtain ⟨e', he', rfl⟩ := he
      have := hkey e' he'
      simp only at hek
      rw [hek, hg] at this
      simp at this
    | some v =>
      simp only [Option.some_or]
      apply writes_mem _ _ _ _ _ (asWrites_nodup hnd)
      simp only [asWrites, List.mem_map]
      exact ⟨(k, v), hperm.mem_iff.2 ((mem_pairs h2 k v).2 hg), rfl⟩
  · intro e he
    simp only [asWrites, List.mem_map] at he
    obtain ⟨e', he', rfl⟩ := he
    have := hkey e' he'
    intro hnil
    simp only at hnil
    rw [hnil] at this
    simp [get, getLoop] at this
  · intro e he
    simp only [asWrites, List.mem_map] at he
    obtain ⟨e', he', rfl⟩ := he
    apply hP
    rw [mem_keys h2]
    simp [hkey e' he']
  · rw [asWrites, List.pairwise_map]
    refine (uniteWrites_order h2).imp ?_
    rintro a b hab ⟨c, cs, e⟩
    exact hab ⟨c :: cs, e.symm⟩

/-! ## Element count -/

theorem setLoop_count (lt : UInt8 → UInt8 → Bool) (v : Option V) (S : Bytes → Prop) (fuel : Nat)
    (k pre : Bytes) (l : HSList (Node V)) (hl : WF l) (hk : k ≠ []) (hf : k.length ≤ fuel)
    (hd : AllN (fun p d => d = none → S p) pre l) (hS : ¬ S (pre ++ k)) :
    (setLoop lt v [] fuel k l).2 = if (listLk l.items k).isNone then 1 else 0 := by
  induction fuel generalizing k pre l with
  | zero => cases k <;> simp_all
  | succ fuel ih =>
    cases k with
    | nil => simp at hk
    | cons c cs =>
      cases set_step lt v fuel c cs l with
      | fresh h1 h2 h3 h4 => rw [h4, listLk_none (by simpa using h1)]; rfl
      | both n r h1 h2 h3 h4 h5 =>
        have hn : n ∈ l.items := h2.mem_iff.2 (by simp)
        rw [h5, listLk_of_mem hl.pw hn (by simp [h1]), nodeLk_eq, if_pos h1.symm]
        cases hdn : n.data with
        | some _ => rfl
        | none => exact absurd (h1 ▸ hd.top n hn hdn) hS
      | prefixed n r a as h1 h2 h3 h4 h5 =>
        have hn : n ∈ l.items := h2.mem_iff.2 (by simp)
        have x1 : ¬ c :: cs = n.key := by rw [h1]; intro h; simpa using congrArg List.length h
        have x2 : ¬ n.key <+: c :: cs := by
          intro h; have := h.length_le; rw [h1] at this; simp at this; omega
        rw [h5, listLk_of_mem hl.pw hn (by simp [h1]), nodeLk_eq, if_neg x1, if_neg x2]
        rfl
      | deeper n r a as h1 h2 h3 h4 h5 h6 =>
        have hn : n ∈ l.items := h3.mem_iff.2 (by simp)
        have hne : n.key ≠ [] := hl.ne n hn
        have x1 : ¬ c :: cs = n.key := by rw [h1]; intro h; simpa using congrArg List.length h
        have x2 : n.key <+: c :: cs := by rw [h1]; simp
        rw [h6, listLk_of_mem hl.pw hn (by simpa using h2), nodeLk_eq, if_neg x1, if_pos x2]
        · have hdd : (c :: cs).drop n.key.length = a :: as := by rw [h1]; simp
          rw [hdd]
          refine ih (a :: as) (pre ++ n.key) n.subnodes (hl.sub n hn) (by simp) ?_ (hd.sub n hn) ?_
          · have hlen := congrArg List.length h1
            have : 0 < n.key.length := List.length_pos_iff.2 hne
            simp only [List.length_append, List.length_cons] at hlen hf ⊢
            omega
          · rw [List.append_assoc, ← h1]; exact hS
      | split n r p a b as bs subs h1 h2 h3 h4 h5 h6 h7 h8 h9 =>
        have hn : n ∈ l.items := h4.mem_iff.2 (by simp)
        have x1 : ¬ c :: cs = n.key := by
          rw [h1, h2]; simp only [List.append_cancel_left_eq]; simp; intro h; exact absurd h.symm h3
        have x2 : ¬ n.key <+: c :: cs := by
          rw [h1, h2, List.prefix_append_right_inj]; simp [h3]
        rw [h9, listLk_of_mem hl.pw hn (by simp [h1]), nodeLk_eq, if_neg x1, if_neg x2]
        rfl

theorem length_of_get {t t' : RTree V} (h : WF t.subnodes) (h' : WF t'.subnodes) (k : Bytes)
    (hk : t'.get k ≠ none) (hfr : ∀ k', k' ≠ k → t'.get k' = t.get k') :
    t'.keys.length = t.keys.length + if (t.get k).isNone then 1 else 0 := by
  have n1 := keys_nodup h
  have n2 := keys_nodup h'
  have sub1 : ∀ x ∈ t.keys, x ∈ t'.keys := by
    intro x hx
    rw [mem_keys h'] 
    by_cases e : x = k
    · rw [e]; exact hk
    · rw [hfr x e]; exact (mem_keys h x).1 hx
  have hkk : k ∈ t'.keys := (mem_keys h' k).2 hk
  have sub2 : ∀ x ∈ t'.keys, x ≠ k → x ∈ t.keys := by
    intro x hx e
    rw [mem_keys h, ← hfr x e]
    exact (mem_keys h' x).1 hx
  cases hg : t.get k with
  | some v =>
    have hkt : k ∈ t.keys := (mem_keys h k).2 (by simp [hg])
    have a := pigeonhole _ _ n1 sub1
    have b := pigeonhole _ _ n2 (fun x hx => by
      by_cases e : x = k
      · rw [e]; exact hkt
      · exact sub2 x hx e)
    simp; omega
  | none =>
    have hkt : k ∉ t.keys := fun hm => (mem_keys h k).1 hm hg
    have a := pigeonhole (k :: t.keys) t'.keys (List.nodup_cons.2 ⟨hkt, n1⟩) (by
      simp only [List.mem_cons, forall_eq_or_imp]; exact ⟨hkk, sub1⟩)
    have b := pigeonhole t'.keys (k :: t.keys) n2 (fun x hx => by
      by_cases e : x = k
      · simp [e]
      · simp [sub2 x hx e])
    simp only [List.length_cons] at a b
    simp; omega

/-! ## Comparison -/

theorem paircmp_eq (vcmp : V → V → Bool) (a b : Bytes × V) :
    paircmp vcmp a b = true ↔ a.1 = b.1 ∧ vcmp a.2 b.2 = true := by
  unfold paircmp
  by_cases h : a.1 = b.1 <;> simp [h]

theorem uniq_pairs (vcmp : V → V → Bool) {l : List (Bytes × V)}
    (h : l.Pairwise fun a b => a.1 ≠ b.1) : CSet.Uniq (paircmp vcmp) l :=
  h.imp fun {a b} hab => by simp [paircmp, hab]

theorem injAt_pairs (vcmp : V → V → Bool) {l1 : List (Bytes × V)} (l2 : List (Bytes × V))
    (h : l1.Pairwise fun a b => a.1 ≠ b.1) : CSet.InjAt (paircmp vcmp) l1 l2 := by
  refine h.imp ?_
  intro a b hab i hi hj
  obtain ⟨h1, h2, -⟩ := CSet.at?_some hi
  obtain ⟨h3, h4, -⟩ := CSet.at?_some hj
  rw [paircmp_eq] at h2 h4
  exact hab (h2.1.symm.trans h4.1)

theorem cmp_iff (vcmp : V → V → Bool) {t1 t2 : RTree V} (h1 : WF t1.subnodes)
    (h2 : WF t2.subnodes) : t1.cmp vcmp t2 = true ↔
      ∀ k, match t1.get k, t2.get k with
        | none, none => True
        | some v1, some v2 => vcmp v2 v1 = true
        | _, _ => False := by
  have p1 := pairs_nodup h1
  have p2 := pairs_nodup h2
  have e1 : t1.pairs.foldl (CSet.add (paircmp vcmp)) [] = t1.pairs := by
    simpa using CSet.foldl_add_of_pairwise t1.pairs [] (by simpa using uniq_pairs vcmp p1)
  have e2 : t2.pairs.foldl (CSet.add (paircmp vcmp)) [] = t2.pairs := by
    simpa using CSet.foldl_add_of_pairwise t2.pairs [] (by simpa using uniq_pairs vcmp p2)
  have hc := (CSet.cmp_spec (paircmp vcmp) t1.pairs t2.pairs (injAt_pairs vcmp _ p1)).1
  simp only [cmp, e1, e2, beq_iff_eq]
  rw [hc]
  have hmem : (∀ x ∈ t1.pairs, CSet.mem (paircmp vcmp) t2.pairs x = true) ↔
      ∀ k v1, t1.get k = some v1 → ∃ v2, t2.get k = some v2 ∧ vcmp v2 v1 = true := by
    constructor
    · intro h k v1 hg
      obtain ⟨⟨k', v2⟩, hm, he⟩ := (CSet.mem_iff _ _ _).1 (h (k, v1) ((mem_pairs h1 k v1).2 hg))
      rw [paircmp_eq] at he
      obtain ⟨rfl, he⟩ := he
      exact ⟨v2, (mem_pairs h2 _ _).1 hm, he⟩
    · rintro h ⟨k, v1⟩ hm
      obtain ⟨v2, hg, he⟩ := h k v1 ((mem_pairs h1 k v1).1 hm)
      exact (CSet.mem_iff _ _ _).2 ⟨(k, v2), (mem_pairs h2 _ _).2 hg, (paircmp_eq _ _ _).2 ⟨rfl, he⟩⟩
  have hlen1 : t1.pairs.length = t1.keys.length := by simp [keys]
  have hlen2 : t2.pairs.length = t2.keys.length := by simp [keys]
  rw [hmem, hlen1, hlen2]
  constructor
  · rintro ⟨hall, hlen⟩ k
    have hsub : ∀ x ∈ t1.keys, x ∈ t2.keys := by
      intro x hx
      rw [mem_keys h1] at hx
      cases hg : t1.get x with
      | none => exact absurd hg hx
      | some v =>
        obtain ⟨v2, hg2, -⟩ := hall x v hg
        rw [mem_keys h2, hg2]; simp
    have hsub2 := pigeonhole_eq _ _ (keys_nodup h1) hsub (by omega)
    cases g1 : t1.get k with
    | some v1 =>
      obtain ⟨v2, hg2, he⟩ := hall k v1 g1
      simp [hg2, he]
    | none =>
      cases g2 : t2.get k with
      | none => simp
      | some v2 =>
        have := hsub2 k ((mem_keys h2 k).2 (by simp [g2]))
        rw [mem_keys h1, g1] at this
        exact absurd rfl this
  · intro h
    refine ⟨?_, ?_⟩
    · intro k v1 g1
      have := h k
      rw [g1] at this
      cases g2 : t2.get k with
      | none => simp [g2] at this
      | some v2 => exact ⟨v2, rfl, by simpa [g2] using this⟩
    · have hk : ∀ x, x ∈ t1.keys ↔ x ∈ t2.keys := by
        intro x
        rw [mem_keys h1, mem_keys h2]
        have := h x
        cases g1 : t1.get x <;> cases g2 : t2.get x <;> simp [g1, g2] at this ⊢
      have a := pigeonhole _ _ (keys_nodup h1) fun x hx => (hk x).1 hx
      have b := pigeonhole _ _ (keys_nodup h2) fun x hx => (hk x).2 hx
      omega

/-! ## The values walk -/

theorem walkLoop_calls (fuel : Nat) (q : List (Bytes × List (Node V))) :
    walkLoop fuel (q.map (·.2)) = (uniteCalls fuel q).map (·.2) := by
  induction fuel generalizing q with
  | zero => rfl
  | succ fuel ih =>
    cases q with
    | nil => rfl
    | cons e es =>
      obtain ⟨k, l⟩ := e
      simp only [List.map_cons, walkLoop, uniteCalls, List.map_append]
      rw [← ih]
      congr 1
      · induction l with
        | nil => rfl
        | cons n ns ihn =>
          simp only [List.filterMap_cons, List.flatMap_cons, List.map_append, ← ihn]
          cases n.data <;> simp [emit]
      · congr 1
        simp [List.filter_map, Function.comp_def]

theorem valuesWalk_perm (t : RTree V) : t.valuesWalk.Perm (t.pairs.map (·.2)) := by
  have := walkLoop_calls (listCount t.subnodes.items + 1) [([], t.subnodes.items)]
  rw [valuesWalk]
  simp only [List.map_cons, List.map_nil] at this
  rw [this]
  exact (uniteWrites_perm t).map _

end Comps.RTree
