import Verif.Lemmas.RTreeReach

/-!
# Properties of the dictionary (C01 - C09)

`lt` is the (implementation defined) order of `char`; every theorem holds for every `lt`.
Values `V` are arbitrary; a NULL value is `none`.
-/

namespace Comps.Props
open Comps Comps.Spec Comps.RTree

variable {V : Type} {lt : UInt8 → UInt8 → Bool}

/-- The order used in examples. -/
abbrev ult : UInt8 → UInt8 → Bool := fun a b => a < b

/-! ## C01 read-after-write -/

/-- C01: on every reachable dictionary, reading a key just written gives the value written. -/
theorem C01_read_after_write {S : List Bytes} {t : RTree V} (h : Reach lt S t) (k : Bytes)
    (hk : k ≠ []) (v : Option V) : (t.set lt k v).get k = v :=
  set_get lt (reach_inv h).wf k hk v

/-- "ab" -> 1, "c" -> 2, reachable by two writes. -/
def exTree : RTree Nat := (RTree.create.set ult [97, 98] (some 1)).set ult [99] (some 2)

theorem exTree_reach : Reach ult [[99], [97, 98]] exTree := .set _ _ (.set _ _ .create)

example : (exTree.set ult [97] (some 3)).get [97] = some 3 :=
  C01_read_after_write exTree_reach _ (by simp) _

/-! ## C02 writes do not disturb other keys -/

/-- C02 is false: writing "a" into {"ab", "c"} loses "c". -/
theorem C02_false : ∃ (S : List Bytes) (t : RTree Nat) (k k' : Bytes) (v : Option Nat),
    Reach ult S t ∧ k ≠ [] ∧ k' ≠ k ∧ t.get k' = some 2 ∧ (t.set ult k v).get k' = none :=
  ⟨_, exTree, [97], [99], some 3, exTree_reach, by decide, by decide, by decide, by decide⟩

/-- C02, part that holds: no other key changes if the written key is not a proper prefix of a key
written earlier.  Missing: the case where it is. -/
theorem C02_frame_partial {S : List Bytes} {t : RTree V} (h : Reach lt S t) (k : Bytes)
    (v : Option V) (hk : ∀ s ∈ S, ¬ ProperPrefix k s) (k' : Bytes) (hne : k' ≠ k) :
    (t.set lt k v).get k' = t.get k' := by
  refine set_frame lt (reach_inv h).wf (reach_inv h).tok k v ?_ k' hne
  rintro k'' ⟨b, bs, rfl⟩ ⟨s, hs, r, rfl⟩
  exact hk _ hs ⟨b, bs ++ r, by simp⟩

/-- C02, part that holds: a fresh copy (`comps_objdict_clone` or `comps_object_copy`) never loses
other keys on the next write.  Missing: dictionaries that are not fresh copies. -/
theorem C02_frame_copy_partial {S : List Bytes} {t : RTree V} (h : Reach lt S t) (f : V → V)
    (k : Bytes) (v : Option V) (k' : Bytes) (hne : k' ≠ k) :
    ((t.clone f).set lt k v).get k' = (t.clone f).get k' ∧
    ((t.copy f).set lt k v).get k' = (t.copy f).get k' := by
  have w := (reach_inv h).wf
  constructor
  · refine set_frame lt (P := fun _ => False) ?_ ?_ k v (by simp) k' hne
    · rw [clone_subnodes]; exact cloneHS_wf f w
    · rw [clone_subnodes]; exact cloneHS_tok f _ _ w
  · refine set_frame lt (P := fun _ => False) ?_ ?_ k v (by simp) k' hne
    · rw [copy_subnodes]; exact cloneHS_wf f w
    · rw [copy_subnodes]; exact cloneHS_tok f _ _ w

example : (exTree.set ult [97, 98, 99] (some 3)).get [99] = exTree.get [99] :=
  C02_frame_partial exTree_reach _ _ (by
    simp only [List.mem_cons, List.not_mem_nil, or_false, forall_eq_or_imp, forall_eq]
    constructor <;> rintro ⟨b, bs, h⟩ <;> simpa using congrArg List.length h) _ (by decide)

example : ((exTree.clone id).set ult [97] (some 3)).get [99] = (exTree.clone id).get [99] :=
  (C02_frame_copy_partial exTree_reach id _ _ _ (by decide)).1

/-! ## C03 finite map over histories -/

/-- The dictionary after a history of writes, first write first. -/
def afterWrites (lt : UInt8 → UInt8 → Bool) (ws : List (Bytes × Option V)) : RTree V :=
  ws.foldl (fun t w => t.set lt w.1 w.2) RTree.create

/-- C03 is false: the same history as in `C02_false`. -/
theorem C03_false : ∃ (ws : List (Bytes × Option Nat)) (k : Bytes), (∀ w ∈ ws, w.1 ≠ []) ∧
    (afterWrites ult ws).get k ≠ FMap.none.writes ws k :=
  ⟨[([97, 98], some 1), ([99], some 2), ([97], some 3)], [99], by decide, by decide⟩

/-- C03, part that holds: histories in which no key is a proper prefix of an earlier key.
Missing: other histories. -/
theorem C03_finite_map_partial (ws : List (Bytes × Option V)) (hne : ∀ w ∈ ws, w.1 ≠ [])
    (hord : ws.Pairwise fun a b => ¬ ProperPrefix b.1 a.1) (k : Bytes) :
    (afterWrites lt ws).get k = FMap.none.writes ws k := by
  have h := setAll_get lt ws (fun _ => False) (t := (RTree.create : RTree V)) wf_empty
    (tok_empty _ _) hne (by simp) hord k
  have e : (RTree.create : RTree V).get = FMap.none := by
    funext k
    rw [get_eq wf_empty]
    simp [RTree.create, listLk, FMap.none]
  rw [e] at h
  exact h

/-- A prefix-free key set: every history of writes over it is exact.  The property keys of groups,
categories and environments are such a set. -/
theorem C03_prefix_free_partial (K : List Bytes) (hK : ∀ a ∈ K, ∀ b ∈ K, ¬ ProperPrefix a b)
    (hK' : [] ∉ K) (ws : List (Bytes × Option V)) (hw : ∀ w ∈ ws, w.1 ∈ K) (k : Bytes) :
    (afterWrites lt ws).get k = FMap.none.writes ws k := by
  refine C03_finite_map_partial ws (fun w h e => hK' (e ▸ hw w h)) ?_ k
  have : ∀ ws : List (Bytes × Option V), (∀ w ∈ ws, w.1 ∈ K) →
      ws.Pairwise fun a b => ¬ ProperPrefix b.1 a.1 := by
    intro ws hw
    induction ws with
    | nil => simp
    | cons w ws ih =>
      rw [List.pairwise_cons]
      exact ⟨fun b hb => hK _ (hw b (by simp [hb])) _ (hw w (by simp)),
        ih fun w' h' => hw w' (by simp [h'])⟩
  exact this ws hw

example : (afterWrites ult [([97], some 1), ([97, 98], some 2), ([98], none), ([97], some 4)]).get
    [97, 98] = some 2 := by
  have h := C03_finite_map_partial (lt := ult)
    [([97], some 1), ([97, 98], some 2), ([98], none), ([97, 99], some 4)] (by simp)
    (by
      simp only [List.pairwise_cons, List.mem_cons, List.not_mem_nil, or_false, forall_eq_or_imp,
        forall_eq, false_implies, implies_true, and_true, ProperPrefix, List.Pairwise.nil]
      refine ⟨⟨?_, ?_, ?_⟩, ⟨?_, ?_⟩, ?_⟩ <;> rintro ⟨b, bs, h⟩ <;> simp_all) [97, 98]
  revert h
  decide

/-! ## C04 listings -/

/-- C04: on every reachable dictionary the pair listing has exactly the keys with a non-NULL value,
with the value that lookup returns, each once; the key and value listings are its components.
The values walk visits the same values, in another order. -/
theorem C04_listings {S : List Bytes} {t : RTree V} (h : Reach lt S t) :
    (∀ k v, (k, v) ∈ t.pairs ↔ t.get k = some v) ∧ t.keys.Nodup ∧
    t.keys = t.pairs.map (·.1) ∧ t.values = t.pairs.map (·.2) ∧ t.valuesWalk.Perm t.values :=
  ⟨mem_pairs (reach_inv h).wf, keys_nodup (reach_inv h).wf, rfl, rfl, valuesWalk_perm t⟩

example : exTree.pairs = [([97, 98], 1), ([99], 2)] := by decide
example : exTree.valuesWalk = [1, 2] := by decide
example : ([97, 98], 1) ∈ exTree.pairs ↔ exTree.get [97, 98] = some 1 :=
  (C04_listings exTree_reach).1 _ _

/-! ## C05 removal -/

/-- C05 is false, witness 1: removing "a" from {"a", "ab"} removes "ab" too. -/
theorem C05_false_descendant : ∃ (S : List Bytes) (t t' : RTree Nat),
    Reach ult S t ∧ t.unset [97] = .ok t' ∧ t.get [97, 98] = some 2 ∧ t'.get [97, 98] = none :=
  ⟨_, (RTree.create.set ult [97] (some 1)).set ult [97, 98] (some 2), ⟨⟨[], false⟩, 2⟩,
    .set _ _ (.set _ _ .create), by rfl, by decide, by decide⟩

/-- C05 is false, witness 2: removing "def" and then "desc" from a dictionary with these two keys
uses freed memory. -/
theorem C05_false_fault : ∃ (S : List Bytes) (t t' : RTree Nat),
    Reach ult S t ∧ t.unset [100, 101, 102] = .ok t' ∧
    t'.unset [100, 101, 115, 99] = .error .useAfterFree :=
  ⟨_, (RTree.create.set ult [100, 101, 102] (some 1)).set ult [100, 101, 115, 99] (some 2),
    ⟨⟨[.mk [100, 101] none [.mk [115, 99] (some 2) [] false] true], false⟩, 2⟩,
    .set _ _ (.set _ _ .create), by rfl, by rfl⟩

/-- C05, part that holds: whenever removal returns, the key reads NULL.
Missing: other keys, absence of faults. -/
theorem C05_removed_partial {S : List Bytes} {t t' : RTree V} (h : Reach lt S t) (k : Bytes)
    (hu : t.unset k = .ok t') : t'.get k = none := by
  have w := (reach_inv h).wf
  have hu0 := hu
  simp only [RTree.unset] at hu
  split at hu
  · simp at hu
  · rename_i hn
    simp at hu; subst hu
    rw [get_eq w]
    exact unsetLoop_missing _ _ _ _ w (Nat.le_refl _) hn
  · rename_i s hs
    simp at hu; subst hu
    obtain ⟨h1, h2, -⟩ := unsetLoop_found _ _ _ _ _ w hs
    rw [get_eq h1]
    exact h2

/-- C05, part that holds: on a fresh copy, whenever removal returns, no other key changes.
Missing: other dictionaries, absence of faults. -/
theorem C05_frame_copy_partial {S : List Bytes} {t t' : RTree V} (h : Reach lt S t) (f : V → V)
    (k : Bytes) (hu : (t.clone f).unset k = .ok t') (k' : Bytes) (hk' : k' ≠ k) :
    t'.get k' = (t.clone f).get k' := by
  have w : WF (t.clone f).subnodes := by rw [clone_subnodes]; exact cloneHS_wf f (reach_inv h).wf
  have tk : TOK (fun _ => False) [] (t.clone f).subnodes := by
    rw [clone_subnodes]; exact cloneHS_tok f _ _ (reach_inv h).wf
  simp only [RTree.unset] at hu
  split at hu
  · simp at hu
  · simp at hu; subst hu; rfl
  · rename_i s hs
    simp at hu; subst hu
    obtain ⟨h1, -, -, -, h5⟩ := unsetLoop_found _ _ _ _ _ w hs
    rw [get_eq h1, get_eq w]
    exact h5 _ tk k' hk'

/-- C05, part that holds: if no other key ever written shares its first byte, removal is exact and
never faults.  Missing: keys that share a first byte. -/
theorem C05_exact_partial {S : List Bytes} {t : RTree V} (h : Reach lt S t) (k : Bytes)
    (hk : ∀ s ∈ S, s ≠ k → s.head? ≠ k.head?) :
    ∃ t', t.unset k = .ok t' ∧ ∀ k', t'.get k' = if k' = k then none else t.get k' := by
  have w := (reach_inv h).wf
  have hp := (reach_inv h).path
  cases k with
  | nil =>
    refine ⟨t, rfl, fun k' => ?_⟩
    split
    · rename_i e; subst e; rfl
    · rfl
  | cons c cs =>
    cases hfd : findAt c t.subnodes.items with
    | none =>
      refine ⟨t, by simp [RTree.unset, unsetLoop, hfd], fun k' => ?_⟩
      split
      · rename_i e; subst e
        rw [get_eq w]
        exact listLk_none (by simpa using findAt_none hfd)
      · rfl
    | some r =>
      obtain ⟨i, n⟩ := r
      obtain ⟨pre, post, hitems, hi, hh⟩ := findAt_some hfd
      have hnl : n ∈ t.subnodes.items := by rw [hitems]; simp
      have only : ∀ p s, s ∈ S → p <+: s → p.head? = some c → s = c :: cs := by
        intro p s hs hps hpc
        refine Decidable.byContradiction fun hne => hk s hs hne ?_
        rw [← head_of_prefix (by rintro rfl; simp at hpc) hps, hpc]; rfl
      have hkey : n.key = c :: cs := by
        have := hp.top n hnl
        simp only [List.nil_append] at this
        rcases this with hm | ⟨s1, m1, s2, m2, a, b, hab, p1, p2⟩
        · exact only _ _ hm (List.prefix_refl _) hh
        · exfalso
          have e1 := only _ _ m1 ((List.prefix_append _ _).trans p1) hh
          have e2 := only _ _ m2 ((List.prefix_append _ _).trans p2) hh
          rw [e1] at p1; rw [e2] at p2
          have := List.prefix_of_prefix_length_le p1 p2 (by simp)
          rw [List.prefix_append_right_inj] at this
          simp at this
          exact hab this
      have hsub : n.sub = [] := by
        refine List.eq_nil_iff_forall_not_mem.2 fun m hm => ?_
        have hq := (hp.sub n hnl).top m hm
        obtain ⟨s, hs, hps⟩ := hq.below
        simp only [List.nil_append] at hps
        have e := only _ _ hs ((List.prefix_append _ _).trans hps) hh
        rw [e, hkey] at hps
        have := hps.length_le
        have hne : m.key ≠ [] := (w.sub n hnl).ne m hm
        have : 0 < m.key.length := List.length_pos_iff.2 hne
        simp at *
        omega
      have htail : n.tail = false := by
        cases ht : n.tail with
        | false => rfl
        | true => exact absurd hsub ((w.sub n hnl).tl ht)
      have hmk : ∃ y, matchKey n.key (c :: cs) = .both y := by
        have hm := matchKey_spec cs hh
        cases hmk : matchKey n.key (c :: cs) with
        | both y => exact ⟨y, rfl⟩
        | keyEnds y =>
          simp only [hmk] at hm
          obtain ⟨⟨a, as, e⟩, -⟩ := hm
          rw [hkey] at e
          exact absurd (congrArg List.length e) (by simp)
        | nodeEnds y =>
          simp only [hmk] at hm
          obtain ⟨⟨a, as, e⟩, -⟩ := hm
          rw [hkey] at e
          exact absurd (congrArg List.length e) (by simp)
        | differ y =>
          simp only [hmk] at hm
          obtain ⟨p, a, as, b, bs, e1, e2, hab, -⟩ := hm
          rw [hkey, e2] at e1
          have := List.append_cancel_left e1
          simp at this
          exact absurd this.1.symm hab
      obtain ⟨y, hmk⟩ := hmk
      subst hi
      have hun : unsetLoop (c :: cs).length false (c :: cs) t.subnodes =
          .ok (some (t.subnodes.removeAt pre.length)) := by
        simp [unsetLoop, hfd, hmk, htail]
      refine ⟨⟨t.subnodes.removeAt pre.length, t.len⟩, by rw [RTree.unset, hun], fun k' => ?_⟩
      obtain ⟨w', hnone, -⟩ := unsetLoop_found _ _ _ _ _ w hun
      rw [get_eq w', get_eq w]
      split
      · rename_i e; subst e; exact hnone
      · rename_i hne
        have hps : (t.subnodes.removeAt pre.length).items = pre ++ post := by
          simp only [HSList.removeAt, hitems, eraseIdx_mid]
        have hpm : t.subnodes.items.Perm (n :: (pre ++ post)) := hitems ▸ perm_mid pre post n
        have hheads := heads_perm hpm w.heads
        simp only
        rw [hps, listLk_perm hpm w.heads, listLk_cons]
        split
        · rename_i hhd
          rw [nodeLk_eq, hsub]
          have h1 : listLk (pre ++ post) k' = none := by
            apply listLk_none
            rw [heads_cons] at hheads
            intro m hmm e
            exact hheads.2.1 m hmm (by rw [e, hhd])
          have : ¬ k' = n.key := by rw [hkey]; exact hne
          rw [h1, if_neg this]
          simp [listLk]
        · rfl

example : ∃ t', exTree.unset [97, 98] = .ok t' ∧
    ∀ k', t'.get k' = if k' = [97, 98] then none else exTree.get k' :=
  C05_exact_partial exTree_reach _ (by decide)
example : ∃ t', exTree.unset [99] = .ok t' ∧ t'.get [99] = none :=
  ⟨_, rfl, C05_removed_partial exTree_reach [99] rfl⟩
example : ∃ t', ((exTree.set ult [97] (some 1)).clone id).unset [97] = .ok t' ∧
    t'.get [97, 98] = some 1 :=
  ⟨_, rfl, C05_frame_copy_partial (.set [97] (some 1) exTree_reach) id [97] rfl [97, 98] (by decide)⟩

/-! ## C06 copies -/

/-- C06 is false for the element count: `comps_object_copy` of a dictionary has count 0. -/
theorem C06_false : ∃ (S : List Bytes) (t : RTree Nat), Reach ult S t ∧ t.len = 2 ∧
    (t.copy id).len = 0 ∧ (t.copy id).keys.length = 2 :=
  ⟨_, exTree, exTree_reach, by decide, by decide, by decide⟩

/-- C06, part that holds: clone and copy have the same lookups with copied values, the same listing
in the same order, and clone the same count.  Missing: the count of a copy. -/
theorem C06_copies_partial {S : List Bytes} {t : RTree V} (h : Reach lt S t) (f : V → V) :
    (∀ k, (t.clone f).get k = (t.get k).map f) ∧ (∀ k, (t.copy f).get k = (t.get k).map f) ∧
    (t.clone f).pairs = t.pairs.map (fun e => (e.1, f e.2)) ∧
    (t.copy f).pairs = t.pairs.map (fun e => (e.1, f e.2)) ∧
    (t.clone f).len = t.len := by
  have w := (reach_inv h).wf
  have wc : WF (t.clone f).subnodes := by rw [clone_subnodes]; exact cloneHS_wf f w
  have wp : WF (t.copy f).subnodes := by rw [copy_subnodes]; exact cloneHS_wf f w
  refine ⟨fun k => ?_, fun k => ?_, ?_, ?_, rfl⟩
  · rw [get_eq wc, get_eq w, clone_subnodes]; exact listLk_clone f w k
  · rw [get_eq wp, get_eq w, copy_subnodes]; exact listLk_clone f w k
  · rw [pairs_eq, pairs_eq, clone_subnodes]; exact preL_clone f w []
  · rw [pairs_eq, pairs_eq, copy_subnodes]; exact preL_clone f w []

example : (exTree.copy (· + 1)).get [99] = some 3 := by
  rw [(C06_copies_partial exTree_reach _).2.1]; decide

/-! ## C07 element count -/

/-- C07 is false, witness 1: removal does not change the count. -/
theorem C07_false_unset : ∃ (S : List Bytes) (t : RTree Nat), Reach ult S t ∧ t.len = 2 ∧
    t.keys.length = 1 :=
  ⟨_, ⟨⟨[.mk [97, 98] (some 1) [] false], false⟩, 2⟩,
    .unset (t := exTree) [99] exTree_reach (by rfl), by decide, by decide⟩

/-- C07 is false, witness 2: writing "a" after "ab" and "ac" is not counted. -/
theorem C07_false_set : ∃ (ws : List (Bytes × Option Nat)), (∀ w ∈ ws, w.2 ≠ none) ∧
    (afterWrites ult ws).len = 2 ∧ (afterWrites ult ws).keys.length = 3 :=
  ⟨[([97, 98], some 1), ([97, 99], some 2), ([97], some 3)], by decide, by decide, by decide⟩

/-- C07, part that holds: histories of non-NULL writes in which no key is a proper prefix of an
earlier one.  Missing: removals, NULL values, other histories. -/
theorem C07_len_partial (ws : List (Bytes × V)) (hne : ∀ w ∈ ws, w.1 ≠ [])
    (hord : ws.Pairwise fun a b => ¬ ProperPrefix b.1 a.1) :
    (afterWrites lt (ws.map fun w => (w.1, some w.2))).len =
      (afterWrites lt (ws.map fun w => (w.1, some w.2))).keys.length := by
  have key : ∀ (ws : List (Bytes × V)) (S : List Bytes) (t : RTree V), WF t.subnodes →
      TOK (Below S) [] t.subnodes →
      AllN (fun p d => d = none → ∃ s ∈ S, ProperPrefix p s) [] t.subnodes →
      t.len = t.keys.length → (∀ w ∈ ws, w.1 ≠ []) →
      (∀ w ∈ ws, ∀ s ∈ S, ¬ ProperPrefix w.1 s) →
      (ws.Pairwise fun a b => ¬ ProperPrefix b.1 a.1) →
      (setAll lt t (ws.map fun w => (w.1, some w.2))).len =
        (setAll lt t (ws.map fun w => (w.1, some w.2))).keys.length := by
    intro ws
    induction ws with
    | nil => intro S t _ _ _ h _ _ _; exact h
    | cons e es ih =>
      intro S t hw ht hd hlen hne hS hord
      rw [List.pairwise_cons] at hord
      have hguard : ∀ k', ProperPrefix e.1 k' → ¬ Below S k' := by
        rintro k' ⟨b, bs, rfl⟩ ⟨s, hs, r, rfl⟩
        exact hS e (by simp) _ hs ⟨b, bs ++ r, by simp⟩
      refine ih (e.1 :: S) (t.set lt e.1 (some e.2)) (set_wf lt hw _ _) ?_ ?_ ?_
        (fun w h => hne w (by simp [h])) ?_ hord.2
      · refine set_tok lt hw (ht.mono ?_) _ _ ?_
        · rintro b ⟨s, hs, q⟩; exact ⟨s, by simp [hs], q⟩
        · intro p hp; exact ⟨e.1, by simp, hp⟩
      · refine setLoop_alln lt _ _ _ _ [] _ hw (hd.mono ?_) (by simp) ?_
        · rintro b d q hn
          obtain ⟨s, hs, q⟩ := q hn
          exact ⟨s, by simp [hs], q⟩
        · rintro p a b as bs d e1 hab - -
          exact ⟨e.1, by simp, b, bs, by simpa using e1⟩
      · have h1 := length_of_get hw (set_wf lt hw e.1 (some e.2)) e.1
          (by rw [set_get lt hw _ (hne e (by simp))]; simp)
          (fun k' hk' => set_frame lt hw ht _ _ hguard k' hk')
        have h2 := setLoop_count lt (some e.2) (fun p => ∃ s ∈ S, ProperPrefix p s) e.1.length e.1 []
          t.subnodes hw (hne e (by simp)) (Nat.le_refl _) hd (by
            rintro ⟨s, hs, q⟩; exact hS e (by simp) s hs (by simpa using q))
        rw [← get_eq hw] at h2
        rw [h1, ← h2, ← hlen]
        rfl
      · intro w hwm s hs
        rcases List.mem_cons.1 hs with rfl | hs
        · exact hord.1 w hwm
        · exact hS w (by simp [hwm]) s hs
  exact key ws [] RTree.create wf_empty (tok_empty _ _) (alln_empty _ _) (by rfl) hne (by simp) hord

example : (afterWrites ult ([([97], 1), ([97, 98], 2), ([97], 5)].map fun w => (w.1, some w.2))).len
    = 2 := by decide
example := C07_len_partial (lt := ult) [([97], 1), ([97, 98], 2), ([98], 5)] (by simp) (by
  simp only [List.pairwise_cons, List.mem_cons, List.not_mem_nil, or_false, forall_eq_or_imp,
    forall_eq, false_implies, implies_true, and_true, ProperPrefix, List.Pairwise.nil]
  refine ⟨⟨?_, ?_⟩, ?_⟩ <;> rintro ⟨b, bs, h⟩ <;> simp_all)

/-! ## C08 union -/

/-- C08: on every pair of reachable dictionaries the union is the right-biased union of the two
maps (`f` copies the values of the first operand). -/
theorem C08_union {S1 S2 : List Bytes} {t1 t2 : RTree V} (h1 : Reach lt S1 t1)
    (h2 : Reach lt S2 t2) (f : V → V) (k : Bytes) :
    (t1.union lt f t2).get k = FMap.merge (fun k => (t1.get k).map f) t2.get k := by
  have w := (reach_inv h1).wf
  have wc : WF (t1.clone f).subnodes := by rw [clone_subnodes]; exact cloneHS_wf f w
  have tc : TOK (fun _ => False) [] (t1.clone f).subnodes := by
    rw [clone_subnodes]; exact cloneHS_tok f _ _ w
  have := unite_get (lt := lt) wc tc (reach_inv h2).wf (by simp) k
  rw [RTree.union, this]
  simp only [FMap.merge]
  rw [(C06_copies_partial h1 f).1 k]

/-- C137: in-place merge (`comps_objrtree_unite`) is the right-biased union when no key of the second
operand is a proper prefix of a key written into the first.  Missing: the other case. -/
theorem C137_partial {S1 S2 : List Bytes} {t1 t2 : RTree V} (h1 : Reach lt S1 t1)
    (h2 : Reach lt S2 t2) (hS : ∀ k ∈ t2.keys, ∀ s ∈ S1, ¬ ProperPrefix k s) (k : Bytes) :
    (t1.unite lt t2).get k = FMap.merge t1.get t2.get k := by
  refine unite_get (reach_inv h1).wf (reach_inv h1).tok (reach_inv h2).wf ?_ k
  rintro k hk k' ⟨b, bs, rfl⟩ ⟨s, hs, r, rfl⟩
  exact hS k hk _ hs ⟨b, bs ++ r, by simp⟩

/-- "a" -> 7. -/
def exTree2 : RTree Nat := RTree.create.set ult [97] (some 7)

theorem exTree2_reach : Reach ult [[97]] exTree2 := .set _ _ .create

example : (exTree.union ult id exTree2).get [99] = some 2 := by
  rw [C08_union exTree_reach exTree2_reach]; decide
example : (exTree2.unite ult exTree).get [97, 98] = some 1 := by
  rw [C137_partial exTree2_reach exTree_reach]
  · decide
  · intro k hk s hs
    simp at hs; subst hs
    have : k = [97, 98] ∨ k = [99] := by
      have : k ∈ ([[97, 98], [99]] : List Bytes) := hk
      simpa using this
    rintro ⟨b, bs, e⟩
    rcases this with rfl | rfl <;> simp at e

/-- C137 is false: uniting {"ab" → 1, "c" → 2} with {"a" → 7} loses "c", which the second does not
have. -/
theorem C137_false : Reach ult [[99], [97, 98]] exTree ∧ Reach ult [[97]] exTree2 ∧
    (exTree.unite ult exTree2).get [99] ≠ FMap.merge exTree.get exTree2.get [99] := by
  refine ⟨exTree_reach, exTree2_reach, ?_⟩
  decide

/-! ## C09 comparison -/

/-- C09: for every value comparison, two reachable dictionaries compare equal exactly when they have
the same keys and the values compare equal key by key (second operand's value first). -/
theorem C09_cmp {S1 S2 : List Bytes} {t1 t2 : RTree V} (h1 : Reach lt S1 t1) (h2 : Reach lt S2 t2)
    (vcmp : V → V → Bool) : t1.cmp vcmp t2 = true ↔
      ∀ k, match t1.get k, t2.get k with
        | none, none => True
        | some v1, some v2 => vcmp v2 v1 = true
        | _, _ => False :=
  cmp_iff vcmp (reach_inv h1).wf (reach_inv h2).wf

/-- Same content written in another order compares equal. -/
example : exTree.cmp (· == ·)
    ((RTree.create.set ult [99] (some 2)).set ult [97, 98] (some 1)) = true := by decide
example : exTree.cmp (· == ·) exTree2 = false := by
  cases h : exTree.cmp (· == ·) exTree2 with
  | false => rfl
  | true =>
    have := (C09_cmp exTree_reach exTree2_reach (· == ·)).1 h [99]
    have e1 : exTree.get [99] = some 2 := by decide
    have e2 : exTree2.get [99] = none := by decide
    rw [e1, e2] at this
    exact this.elim

end Comps.Props

section
open Comps.Props
#print axioms C01_read_after_write
#print axioms C02_false
#print axioms C02_frame_partial
#print axioms C02_frame_copy_partial
#print axioms C03_false
#print axioms C03_finite_map_partial
#print axioms C03_prefix_free_partial
#print axioms C04_listings
#print axioms C05_false_descendant
#print axioms C05_false_fault
#print axioms C05_removed_partial
#print axioms C05_frame_copy_partial
#print axioms C05_exact_partial
#print axioms C06_false
#print axioms C06_copies_partial
#print axioms C07_false_unset
#print axioms C07_false_set
#print axioms C07_len_partial
#print axioms C08_union
#print axioms C137_partial
#print axioms C137_false
#print axioms C09_cmp
end
