import Verif.Lemmas.RTreeBack

/-!
# Lemmas: the element count under writes
-/

namespace Comps.RTree
open Comps.Spec
variable {V : Type}

/-- Writing a key that has a value does not count. -/
theorem setLoop_count_hit (lt : UInt8 → UInt8 → Bool) (v : Option V) (fuel : Nat)
    (k : Bytes) (l : HSList (Node V)) (hl : WF l) (hk : listLk l.items k ≠ none) :
    (setLoop lt v [] fuel k l).2 = 0 := by
  induction fuel generalizing k l with
  | zero => cases k <;> rfl
  | succ fuel ih =>
    cases k with
    | nil => rfl
    | cons c cs =>
      cases set_step lt v fuel c cs l with
      | fresh h1 h2 h3 h4 => exact absurd (listLk_none (by simpa using h1)) hk
      | both n r h1 h2 h3 h4 h5 => exact h5
      | prefixed n r a as h1 h2 h3 h4 h5 =>
        exfalso
        have hn : n ∈ l.items := h2.mem_iff.2 (by simp)
        have x1 : ¬ c :: cs = n.key := by rw [h1]; intro h; simpa using congrArg List.length h
        have x2 : ¬ n.key <+: c :: cs := by
          intro h; have := h.length_le; rw [h1] at this; simp at this; omega
        apply hk
        rw [listLk_of_mem hl.pw hn (by simp [h1]), nodeLk_eq, if_neg x1, if_neg x2]
      | deeper n r a as h1 h2 h3 h4 h5 h6 =>
        have hn : n ∈ l.items := h3.mem_iff.2 (by simp)
        have x1 : ¬ c :: cs = n.key := by rw [h1]; intro h; simpa using congrArg List.length h
        have x2 : n.key <+: c :: cs := by rw [h1]; simp
        rw [listLk_of_mem hl.pw hn (by simpa using h2), nodeLk_eq, if_neg x1, if_pos x2] at hk
        have hdd : (c :: cs).drop n.key.length = a :: as := by rw [h1]; simp
        rw [hdd] at hk
        rw [h6]
        exact ih (a :: as) n.subnodes (hl.sub n hn) hk
      | split n r p a b as bs subs h1 h2 h3 h4 h5 h6 h7 h8 h9 =>
        exfalso
        have hn : n ∈ l.items := h4.mem_iff.2 (by simp)
        have x1 : ¬ c :: cs = n.key := by
          rw [h1, h2]; simp only [List.append_cancel_left_eq]; simp; intro h; exact absurd h.symm h3
        have x2 : ¬ n.key <+: c :: cs := by
          rw [h1, h2, List.prefix_append_right_inj]; simp [h3]
        apply hk
        rw [listLk_of_mem hl.pw hn (by simp [h1]), nodeLk_eq, if_neg x1, if_neg x2]

/-- The count is right, and nodes without a value lie on the way to keys of `S`. -/
structure Cnt (S : List Bytes) (t : RTree V) : Prop where
  len : t.len = t.keys.length
  fork : AllN (fun p d => d = none → ∃ s ∈ S, ProperPrefix p s) [] t.subnodes

theorem pp_le {p s s' : Bytes} (h : ProperPrefix p s) (hs : s <+: s') :
    ProperPrefix p s' := by
  obtain ⟨b, bs, rfl⟩ := h
  obtain ⟨r, rfl⟩ := hs
  exact ⟨b, bs ++ r, by simp⟩

theorem Cnt.mono {S S' : List Bytes} {t : RTree V} (h : Cnt S t)
    (hs : ∀ s ∈ S, ∃ s' ∈ S', s <+: s') : Cnt S' t where
  len := h.len
  fork := h.fork.mono fun p d q hd => by
    obtain ⟨s, hm, hp⟩ := q hd
    obtain ⟨s', hm', hp'⟩ := hs s hm
    exact ⟨s', hm', pp_le hp hp'⟩

theorem cnt_empty : Cnt [] (⟨HSList.empty, 0⟩ : RTree V) := ⟨by rfl, alln_empty _ _⟩

theorem guard_below {S : List Bytes} {k : Bytes} (hS : ∀ s ∈ S, ¬ ProperPrefix k s) :
    ∀ k', ProperPrefix k k' → ¬ Below S k' := by
  rintro k' hk ⟨s, hs, hp⟩
  exact hS s hs (pp_le hk hp)

theorem cnt_set (lt : UInt8 → UInt8 → Bool) {S : List Bytes} {t : RTree V} (hw : WF t.subnodes)
    (ht : TOK (Below S) [] t.subnodes) (h : Cnt S t) {k : Bytes} (hk : k ≠ [])
    (hS : ∀ s ∈ S, ¬ ProperPrefix k s) (v : V) : Cnt (k :: S) (t.set lt k (some v)) where
  len := by
    have h1 := length_of_get hw (set_wf lt hw k (some v)) k
      (by rw [set_get lt hw _ hk]; simp)
      (fun k' hk' => set_frame lt hw ht _ _ (guard_below hS) k' hk')
    have h2 := setLoop_count lt (some v) (fun p => ∃ s ∈ S, ProperPrefix p s) k.length k []
      t.subnodes hw hk (Nat.le_refl _) h.fork (by
        rintro ⟨s, hs, q⟩; exact hS s hs (by simpa using q))
    rw [← get_eq hw] at h2
    rw [h1, ← h2, ← h.len]
    rfl
  fork := by
    refine setLoop_alln lt _ _ _ _ [] _ hw (h.fork.mono ?_) (by simp) ?_
    · rintro b d q hn
      obtain ⟨s, hs, q⟩ := q hn
      exact ⟨s, by simp [hs], q⟩
    · rintro p a b as bs d e1 hab - -
      exact ⟨k, by simp, b, bs, by simpa using e1⟩

theorem cnt_set_hit (lt : UInt8 → UInt8 → Bool) {S : List Bytes} {t : RTree V} (hw : WF t.subnodes)
    (h : Cnt S t) {k : Bytes} (hk : t.get k ≠ none) (hS : Below S k) (v : V) :
    Cnt S (t.set lt k (some v)) where
  len := by
    have hne : k ≠ [] := by rintro rfl; exact hk (get_nil t)
    have h1 := length_of_get hw (set_wf lt hw k (some v)) k
      (by rw [set_get lt hw _ hne]; simp)
      (fun k' hk' => set_hit lt hw _ hk hk')
    have h2 := setLoop_count_hit lt (some v) k.length k t.subnodes hw (by rwa [← get_eq hw])
    have h3 : (t.set lt k (some v)).len = t.len + 0 := by rw [← h2]; rfl
    have h4 : (t.get k).isNone = false := by
      cases hg : t.get k with
      | none => exact absurd hg hk
      | some _ => rfl
    rw [h1, h3, h4, h.len]
    rfl
  fork := by
    refine setLoop_alln lt _ _ _ _ [] _ hw h.fork (by simp) ?_
    rintro p a b as bs d e1 hab - -
    obtain ⟨s, hs, hp⟩ := hS
    exact ⟨s, hs, pp_le ⟨b, bs, by simpa using e1⟩ hp⟩

/-- Writing a key that is there, or one that is no proper prefix of a protected key, changes no other
key. -/
theorem set_frame_or (lt : UInt8 → UInt8 → Bool) {P : Bytes → Prop} {t : RTree V}
    (h : WF t.subnodes) (ht : TOK P [] t.subnodes) (k : Bytes) (v : Option V)
    (hP : t.get k ≠ none ∨ ∀ k', ProperPrefix k k' → ¬ P k') (k' : Bytes) (hk' : k' ≠ k) :
    (t.set lt k v).get k' = t.get k' := by
  rcases hP with hP | hP
  · exact set_hit lt h v hP hk'
  · exact set_frame lt h ht k v hP k' hk'

theorem kept_or (lt : UInt8 → UInt8 → Bool) {P : Bytes → Prop} {t : RTree V}
    (h : WF t.subnodes) (ht : TOK P [] t.subnodes) {k : Bytes} (hk : k ≠ []) (v : V)
    (hP : t.get k ≠ none ∨ ∀ k', ProperPrefix k k' → ¬ P k') {k' : Bytes}
    (hk' : t.get k' ≠ none ∨ ∀ k'', ProperPrefix k' k'' → ¬ P k'') (ho : ¬ ProperPrefix k' k) :
    (t.set lt k (some v)).get k' ≠ none ∨ ∀ k'', ProperPrefix k' k'' → ¬ (P k'' ∨ k'' <+: k) := by
  rcases hk' with hk' | hk'
  · left
    by_cases he : k' = k
    · subst he; rw [set_get lt h _ hk]; simp
    · rw [set_frame_or lt h ht k _ hP k' he]; exact hk'
  · right
    rintro k'' hpp (h1 | h1)
    · exact hk' k'' hpp h1
    · exact ho (pp_le hpp h1)

theorem setAll_get_or (lt : UInt8 → UInt8 → Bool) (ws : List (Bytes × V)) :
    ∀ (P : Bytes → Prop) {t : RTree V}, WF t.subnodes → TOK P [] t.subnodes →
      (∀ e ∈ ws, e.1 ≠ []) →
      (∀ e ∈ ws, t.get e.1 ≠ none ∨ ∀ k', ProperPrefix e.1 k' → ¬ P k') →
      (ws.Pairwise fun a b => ¬ ProperPrefix b.1 a.1) → ∀ k,
      (setAll lt t (asWrites ws)).get k = FMap.writes t.get (asWrites ws) k := by
  induction ws with
  | nil => intro P t _ _ _ _ _ k; rfl
  | cons e es ih =>
    intro P t h ht hne hP hord k
    rw [List.pairwise_cons] at hord
    have hstep : (t.set lt e.1 (some e.2)).get = FMap.upd t.get e.1 (some e.2) := by
      funext k'
      simp only [FMap.upd]
      split
      · rename_i hk; subst hk; exact set_get lt h _ (hne e (by simp)) _
      · rename_i hk; exact set_frame_or lt h ht _ _ (hP e (by simp)) _ hk
    have hP' : TOK (fun b => P b ∨ b <+: e.1) [] (t.set lt e.1 (some e.2)).subnodes :=
      set_tok lt h (ht.mono fun _ => Or.inl) _ _ fun p hp => Or.inr hp
    have := ih (fun b => P b ∨ b <+: e.1) (set_wf lt h e.1 (some e.2)) hP'
      (fun e' he' => hne e' (by simp [he'])) (fun e' he' =>
        kept_or lt h ht (hne e (by simp)) e.2 (hP e (by simp)) (hP e' (by simp [he']))
          (hord.1 e' he')) hord.2 k
    rw [hstep] at this
    exact this

/-- Writing the pairs of one tree into another. -/
theorem writes_unite {m : FMap V} {t : RTree V} (h : WF t.subnodes) (k : Bytes) :
    FMap.writes m (asWrites (uniteWrites t)) k = FMap.merge m t.get k := by
  have hperm := uniteWrites_perm t
  have hnd : (uniteWrites t).Pairwise fun a b => a.1 ≠ b.1 :=
    (List.Perm.pairwise_iff (fun h => Ne.symm h) hperm).2 (pairs_nodup h)
  have hkey : ∀ e ∈ uniteWrites t, t.get e.1 = some e.2 := fun e he =>
    (mem_pairs h _ _).1 (hperm.mem_iff.1 he)
  simp only [FMap.merge]
  cases hg : t.get k with
  | none =>
    simp only [Option.none_or]
    apply writes_not_mem
    intro e he hek
    simp only [asWrites, List.mem_map] at he
    obtain ⟨e', he', rfl⟩ := he
    have := hkey e' he'
    simp only at hek
    rw [hek, hg] at this
    simp at this
  | some v =>
    simp only [Option.some_or]
    apply writes_mem _ _ _ _ _ (asWrites_nodup hnd)
    simp only [asWrites, List.mem_map]
    exact ⟨(k, v), hperm.mem_iff.2 ((mem_pairs h k v).2 hg), rfl⟩

theorem below_or {S : List Bytes} {t : RTree V} {k : Bytes}
    (h : t.get k ≠ none ∨ ∀ s ∈ S, ¬ ProperPrefix k s) :
    t.get k ≠ none ∨ ∀ k', ProperPrefix k k' → ¬ Below S k' := h.imp id guard_below

theorem cnt_set_or (lt : UInt8 → UInt8 → Bool) {S : List Bytes} {t : RTree V} (hw : WF t.subnodes)
    (ht : TOK (Below S) [] t.subnodes) (h : Cnt S t) {k : Bytes} (hk : k ≠ [])
    (hS : t.get k ≠ none ∨ ∀ s ∈ S, ¬ ProperPrefix k s) (v : V) :
    Cnt (k :: S) (t.set lt k (some v)) := by
  rcases hS with hS | hS
  · exact cnt_set_hit lt hw (h.mono fun s hs => ⟨s, by simp [hs], List.prefix_refl _⟩) hS
      ⟨k, by simp, List.prefix_refl _⟩ v
  · exact cnt_set lt hw ht h hk hS v

theorem cnt_setAll (lt : UInt8 → UInt8 → Bool) (ws : List (Bytes × V)) :
    ∀ {S : List Bytes} {t : RTree V}, WF t.subnodes → TOK (Below S) [] t.subnodes → Cnt S t →
      (∀ w ∈ ws, w.1 ≠ []) →
      (∀ w ∈ ws, t.get w.1 ≠ none ∨ ∀ s ∈ S, ¬ ProperPrefix w.1 s) →
      (ws.Pairwise fun a b => ¬ ProperPrefix b.1 a.1) →
      Cnt ((ws.map (·.1)).reverse ++ S) (setAll lt t (asWrites ws)) := by
  induction ws with
  | nil => intro S t _ _ h _ _ _; exact h
  | cons e es ih =>
    intro S t hw ht h hne hS hord
    rw [List.pairwise_cons] at hord
    have := ih (S := e.1 :: S) (t := t.set lt e.1 (some e.2)) (set_wf lt hw _ _) ?_
      (cnt_set_or lt hw ht h (hne e (by simp)) (hS e (by simp)) e.2)
      (fun w h => hne w (by simp [h])) ?_ hord.2
    · simpa [asWrites, setAll] using this
    · refine set_tok lt hw (ht.mono ?_) _ _ ?_
      · rintro b ⟨s, hs, q⟩; exact ⟨s, by simp [hs], q⟩
      · intro p hp; exact ⟨e.1, by simp, hp⟩
    · intro w hwm
      rcases hS w (by simp [hwm]) with h1 | h1
      · left
        by_cases he : w.1 = e.1
        · rw [he, set_get lt hw _ (hne e (by simp))]; simp
        · rw [set_frame_or lt hw ht e.1 _ (below_or (hS e (by simp))) _ he]; exact h1
      · right
        intro s hs
        rcases List.mem_cons.1 hs with rfl | hs
        · exact hord.1 w hwm
        · exact h1 s hs

theorem cnt_setAll_hit (lt : UInt8 → UInt8 → Bool) {S : List Bytes} (ws : List (Bytes × V)) :
    ∀ {t : RTree V}, WF t.subnodes → Cnt S t → (∀ w ∈ ws, t.get w.1 ≠ none ∧ Below S w.1) →
      Cnt S (setAll lt t (asWrites ws)) := by
  induction ws with
  | nil => intro t _ h _; exact h
  | cons e es ih =>
    intro t hw h hS
    have := ih (t := t.set lt e.1 (some e.2)) (set_wf lt hw _ _)
      (cnt_set_hit lt hw h (hS e (by simp)).1 (hS e (by simp)).2 e.2) (fun w hm => ⟨?_, (hS w (by simp [hm])).2⟩)
    · simpa [asWrites, setAll] using this
    · by_cases hk : w.1 = e.1
      · rw [hk, set_get lt hw _ (by rintro h0; exact (hS e (by simp)).1 (h0 ▸ get_nil t))]; simp
      · rw [set_hit lt hw _ (hS e (by simp)).1 hk]; exact (hS w (by simp [hm])).1

end Comps.RTree
