import Verif.Lemmas.RTreeReach
import Verif.Lemmas.Doc
import Verif.Spec.RoundTrip
import Verif.Props.MDict

/-!
# The order in which dictionaries list their entries, and writing the entries again
-/

namespace Comps.RTree
open Comps Comps.Spec

variable {V : Type}

theorem create_get (k : Bytes) : (create : RTree V).get k = none := by
  rw [get_eq wf_empty]; rfl

/-- Writing the entries of a dictionary into a new one, in the order in which they are listed, gives
the same lookups. -/
theorem rewrite_get (lt : UInt8 → UInt8 → Bool) {t : RTree V} (h : WF t.subnodes) (k : Bytes) :
    (setAll lt create (asWrites t.pairs)).get k = t.get k := by
  have hkey : ∀ e ∈ t.pairs, t.get e.1 = some e.2 := fun e he => (mem_pairs h _ _).1 he
  rw [setAll_get lt _ (fun _ => False) wf_empty (tok_empty _ _)]
  · cases hg : t.get k with
    | none =>
      rw [writes_not_mem]
      · exact create_get k
      · intro e he hek
        simp only [asWrites, List.mem_map] at he
        obtain ⟨e', he', rfl⟩ := he
        have := hkey e' he'
        simp only at hek
        rw [hek, hg] at this
        simp at this
    | some v =>
      apply writes_mem _ _ _ _ _ (asWrites_nodup (pairs_nodup h))
      simp only [asWrites, List.mem_map]
      exact ⟨(k, v), (mem_pairs h k v).2 hg, rfl⟩
  · intro e he
    simp only [asWrites, List.mem_map] at he
    obtain ⟨e', he', rfl⟩ := he
    have := hkey e' he'
    intro hnil
    simp only at hnil
    rw [hnil] at this
    simp [get, getLoop] at this
  · intro e he k' _ h'; exact h'
  · rw [asWrites, List.pairwise_map]
    refine (pairs_order h).imp ?_
    rintro a b hab ⟨c, cs, e⟩
    exact hab ⟨c :: cs, e.symm⟩

theorem common_prefix {k q as bs : Bytes} {a b : UInt8} (h1 : k <+: q ++ a :: as)
    (h2 : k <+: q ++ b :: bs) (hab : a ≠ b) : k <+: q := by
  rcases prefix_comparable h1 (List.prefix_append q (a :: as)) with h | h
  · exact h
  · obtain ⟨r, rfl⟩ := h
    cases r with
    | nil => simp
    | cons c r =>
      rw [List.prefix_append_right_inj] at h1 h2
      obtain ⟨r1, h1⟩ := h1
      obtain ⟨r2, h2⟩ := h2
      simp only [List.cons_append, List.cons.injEq] at h1 h2
      exact absurd (h1.1.symm.trans h2.1) hab

/-- Where two keys part, there is a node. -/
theorem branch {l : HSList (Node V)} (hl : WF l) {pre : Bytes}
    (hf : AllN (fun _ d => d.isSome = true) pre l) {q as bs : Bytes} {a b : UInt8} {v v' : V}
    (h1 : listLk l.items (q ++ a :: as) = some v) (h2 : listLk l.items (q ++ b :: bs) = some v')
    (hab : a ≠ b) (hq : q ≠ []) : ∃ w, listLk l.items q = some w := by
  induction hl generalizing pre q with
  | mk l e1 e2 e3 e4 ih =>
    have hl : WF l := .mk l e1 e2 e3 e4
    obtain ⟨n, hn, hv⟩ := (listLk_some hl.heads hl.subHeads).1 h1
    obtain ⟨m, hm, hv'⟩ := (listLk_some hl.heads hl.subHeads).1 h2
    have key : ∀ {x : Node V} {k : Bytes} {u : V}, x ∈ l.items → nodeLk x k = some u →
        x.key <+: k := by
      intro x k u hx h
      rcases (nodeLk_some (hl.subHeads x hx)).1 h with ⟨rfl, -⟩ | ⟨r, rfl, -⟩
      · exact List.prefix_refl _
      · exact List.prefix_append _ _
    have hnk := key hn hv
    have hmk := key hm hv'
    have hhd : ∀ s : Bytes, (q ++ s).head? = q.head? := by
      intro s; cases q with
      | nil => exact absurd rfl hq
      | cons c q => rfl
    have hnm : n = m := by
      have g1 : listLk l.items (q ++ a :: as) = nodeLk n (q ++ a :: as) :=
        listLk_of_mem hl.pw hn (head_of_prefix (e1 n hn) hnk)
      have heads : n.key.head? = m.key.head? := by
        rw [head_of_prefix (e1 n hn) hnk, head_of_prefix (e1 m hm) hmk, hhd, hhd]
      by_cases e : n = m
      · exact e
      · exfalso
        obtain ⟨i, hi, rfl⟩ := List.getElem_of_mem hn
        obtain ⟨j, hj, rfl⟩ := List.getElem_of_mem hm
        have hij : i ≠ j := by rintro rfl; exact e rfl
        rcases Nat.lt_or_gt_of_ne hij with h | h
        · exact List.pairwise_iff_getElem.1 e2 i j hi hj h heads
        · exact List.pairwise_iff_getElem.1 e2 j i hj hi h heads.symm
    subst hnm
    have hq' := common_prefix hnk hmk hab
    obtain ⟨r, rfl⟩ := hq'
    cases r with
    | nil =>
      have := hf.top n hn
      cases hd : n.data with
      | none => rw [hd] at this; simp at this
      | some w =>
        refine ⟨w, (listLk_some hl.heads hl.subHeads).2 ⟨n, hn, ?_⟩⟩
        exact (nodeLk_some (hl.subHeads n hn)).2 (.inl ⟨by simp, hd⟩)
    | cons c r =>
      have sub : ∀ {s : Bytes} {u : V}, nodeLk n (n.key ++ c :: r ++ s) = some u →
          listLk n.sub (c :: r ++ s) = some u := by
        intro s u h
        rcases (nodeLk_some (hl.subHeads n hn)).1 h with ⟨h, -⟩ | ⟨p, h, h'⟩
        · have := congrArg List.length h
          simp at this
        · rw [List.append_assoc, List.append_cancel_left_eq] at h
          rw [h]; exact h'
      obtain ⟨w, hw⟩ := ih n hn (hf.sub n hn) (sub hv) (sub hv') (by simp)
      exact ⟨w, (listLk_some hl.heads hl.subHeads).2
        ⟨n, hn, (nodeLk_some (hl.subHeads n hn)).2 (.inr ⟨_, rfl, hw⟩)⟩⟩

end Comps.RTree

namespace Comps.MTree
open Comps Comps.Spec Comps.Obj

/-- The writes that repeat what a multi-dictionary lists. -/
def rewrites (t : MTree CStr) : List (Bytes × CStr) :=
  (multiItems t).map fun e => (e.1, ⟨some e.2⟩)

theorem mem_rewrites {t : MTree CStr} (hi : MultiIn t) (h : Ok t) {w : Bytes × CStr} :
    w ∈ rewrites t → ∃ vs, get t w.1 = some vs ∧ .one w.2 ∈ vs := by
  simp only [rewrites, multiItems, List.mem_map, List.mem_flatMap]
  rintro ⟨e, ⟨⟨k, vs⟩, he, v, hv, rfl⟩, rfl⟩
  have hg := (RTree.mem_pairs h.wf k vs).1 he
  obtain ⟨b, rfl⟩ := (hi k vs hg).2 v hv
  exact ⟨vs, hg, hv⟩

theorem rewrites_order {t : MTree CStr} (h : Ok t) :
    (rewrites t).Pairwise fun a b => ¬ ProperPrefix b.1 a.1 := by
  rw [rewrites, List.pairwise_map, multiItems, List.pairwise_flatMap]
  refine ⟨?_, (RTree.pairs_order h.wf).imp ?_⟩
  · intro e _
    rw [List.pairwise_map]
    refine List.pairwise_of_forall ?_
    rintro x y ⟨c, cs, e⟩
    have := congrArg List.length e
    simp at this
  · intro a b hab x hx y hy
    obtain ⟨_, _, rfl⟩ := List.mem_map.1 hx
    obtain ⟨_, _, rfl⟩ := List.mem_map.1 hy
    rintro ⟨c, cs, e⟩
    exact hab ⟨c :: cs, e.symm⟩

theorem written_flatMap {α : Type} (l : List α) (f : α → List (Bytes × CStr)) (k : Bytes) :
    written (l.flatMap f) k = l.flatMap fun x => written (f x) k := by
  induction l with
  | nil => rfl
  | cons x l ih => simp only [List.flatMap_cons, ← ih]; simp [written]

theorem written_rewrites {t : MTree CStr} (hi : MultiIn t) (h : Ok t) (k : Bytes) :
    (written (rewrites t) k).map .one = (get t k).getD [] := by
  have e : rewrites t = (pairs t).flatMap fun e => e.2.map fun v => (e.1, ⟨some (mvalueText v)⟩) := by
    simp [rewrites, multiItems, List.map_flatMap, Function.comp_def]
  have one : ∀ e ∈ pairs t, ((written (e.2.map fun v => (e.1, (⟨some (mvalueText v)⟩ : CStr))) k).map
      MVal.one) = if e.1 = k then e.2 else [] := by
    rintro ⟨k', vs⟩ he
    have hv := (hi k' vs ((RTree.mem_pairs h.wf k' vs).1 he)).2
    clear he
    induction vs with
    | nil => simp [written]
    | cons v vs ih =>
      obtain ⟨b, rfl⟩ := hv v (by simp)
      have := ih fun v hv' => hv v (by simp [hv'])
      simp only [written, List.map_cons, List.filterMap_cons] at this ⊢
      by_cases hk : k' = k
      · simp only [hk, if_true, List.map_cons] at this ⊢
        rw [this]; rfl
      · simp only [hk, if_false] at this ⊢
        exact this
  have pick : ∀ l : List (Bytes × List (MVal CStr)), (l.Pairwise fun a b => a.1 ≠ b.1) →
      (∀ e ∈ l, ((written (e.2.map fun v => (e.1, (⟨some (mvalueText v)⟩ : CStr))) k).map
      MVal.one) = if e.1 = k then e.2 else []) →
      ((written (l.flatMap fun e => e.2.map fun v => (e.1, ⟨some (mvalueText v)⟩)) k).map MVal.one) =
        ((l.find? fun e => e.1 == k).map (·.2)).getD [] := by
    intro l
    induction l with
    | nil => intro _ _; rfl
    | cons x l ih =>
      intro hp h1
      rw [List.pairwise_cons] at hp
      have ih := ih hp.2 fun e he => h1 e (by simp [he])
      rw [written_flatMap] at ih ⊢
      rw [List.flatMap_cons, List.map_append, h1 x (by simp), ih, List.find?_cons]
      by_cases hx : x.1 = k
      · have : l.find? (fun e => e.1 == k) = none := by
          rw [List.find?_eq_none]
          intro e he; simp only [beq_iff_eq]; intro hek
          exact hp.1 e he (hx.trans hek.symm)
        simp [hx, this]
      · have : (x.1 == k) = false := by simpa using hx
        simp [hx, this]
  rw [e, pick (pairs t) (RTree.pairs_nodup h.wf) one]
  cases hg : get t k with
  | none =>
    have : (pairs t).find? (fun e => e.1 == k) = none := by
      rw [List.find?_eq_none]
      rintro ⟨k', vs⟩ he; simp only [beq_iff_eq]; rintro rfl
      rw [show get t k' = some vs from (RTree.mem_pairs h.wf k' vs).1 he] at hg
      simp at hg
    rw [this]; rfl
  | some vs =>
    have hm := (RTree.mem_pairs h.wf k vs).2 hg
    cases hf : (pairs t).find? (fun e => e.1 == k) with
    | none =>
      rw [List.find?_eq_none] at hf
      exact absurd (hf _ hm) (by simp)
    | some e =>
      obtain ⟨k', vs'⟩ := e
      have h1 := List.mem_of_find?_eq_some hf
      have h2 := List.find?_some hf
      simp only [beq_iff_eq] at h2
      subst h2
      have := (RTree.mem_pairs h.wf k' vs').1 h1
      rw [show get t k' = some vs' from this] at hg
      simp at hg
      simp [hg]

/-- Writing the values of a multi-dictionary into a new one, in the order in which they are listed,
gives the same lookups. -/
theorem rewrite_get {t : MTree CStr} (hi : MultiIn t) (h : Ok t) (k : Bytes) :
    get (Props.mrun (rewrites t)) k = get t k := by
  have ne : ∀ w ∈ rewrites t, w.1 ≠ [] := by
    intro w hw e
    obtain ⟨vs, h1, -⟩ := mem_rewrites hi h hw
    rw [e, get_nil h] at h1
    simp at h1
  have nest : Nested (rewrites t) := by
    intro pre w post e w' hw' p a b as bs h1 h2 hab hp
    obtain ⟨vs, g1, -⟩ := mem_rewrites hi h (w := w) (by rw [e]; simp)
    obtain ⟨vs', g2, -⟩ := mem_rewrites hi h (w := w') (by rw [e]; simp [hw'])
    rw [get_eq h.wf, h1] at g1
    rw [get_eq h.wf, h2] at g2
    obtain ⟨ws, g3⟩ := RTree.branch h.wf h.full g1 g2 hab hp
    have g4 : get t p = some ws := by rw [get_eq h.wf, g3]
    obtain ⟨hne, hone⟩ := hi p ws g4
    cases ws with
    | nil => exact absurd rfl hne
    | cons v ws =>
      have hm : (p, (⟨some (mvalueText v)⟩ : CStr)) ∈ rewrites t := by
        simp only [rewrites, multiItems, List.mem_map, List.mem_flatMap]
        exact ⟨_, ⟨(p, v :: ws), (RTree.mem_pairs h.wf _ _).2 g4, v, by simp, rfl⟩, rfl⟩
      have ho := rewrites_order h
      rw [e] at hm ho
      rw [List.pairwise_append] at ho
      rcases List.mem_append.1 hm with hm | hm
      · exact ⟨_, hm, rfl⟩
      · exfalso
        rcases List.mem_cons.1 hm with hm | hm
        · rw [← hm] at h1
          have := congrArg List.length h1
          simp at this
        · refine (List.pairwise_cons.1 ho.2.1).1 _ hm ⟨a, as, h1⟩
  rw [Props.C10_exact_partial _ ne nest]
  have hw := written_rewrites hi h k
  cases hg : get t k with
  | none =>
    rw [hg] at hw
    simp only [Option.getD_none, List.map_eq_nil_iff] at hw
    rw [if_pos hw]
  | some vs =>
    rw [hg] at hw
    simp only [Option.getD_some] at hw
    rw [if_neg, hw]
    intro e
    rw [e] at hw
    exact (hi k vs hg).1 hw.symm

end Comps.MTree
