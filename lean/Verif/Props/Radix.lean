import Verif.Lemmas.RadixDrop
import Verif.Props.Dict

/-!
# Properties of the plain dictionary (C115 - C121)

`COMPS_Dict`, a dictionary of pointers with a constructor, a cloner and a destructor.  `lt` is the order
of `char`; every theorem holds for every `lt`.
-/

namespace Comps.Props.Radix
open Comps Comps.Spec Comps.Spec.Plain Comps.Radix
open Comps.Props (ult)
open Comps.RTree (reach_inv)
variable {V : Type} {lt : UInt8 → UInt8 → Bool}

/-- A dictionary with a destructor and a cloner, as `comps_dict_create(NULL, f, free)`. -/
def owning (f : V → V) : Calls V := ⟨none, some f, true⟩

/-! ## C115 nothing is destroyed twice or too early -/

/-- **C115.**  After every history, with any callbacks, each pointer handed over is in one place:
passed to the destructor, readable, or lost.  So if the pointers handed over differ, none is passed to the
destructor twice, not even when the dictionary is destroyed, and none that can still be read has been
passed to it. -/
theorem C115_freed_once (c : Calls V) (xs : List (Call V)) {s : Store V} {d : List (Option V)}
    (h : run c lt create xs = .ok (s, d)) :
    (∃ lost, (freed d ++ lost).Perm (handed c xs)) ∧
    (∀ vs, values s = .ok vs → ∃ lost, (freed d ++ vs ++ lost).Perm (handed c xs)) ∧
    (∀ d', destroy c s = .ok d' → ∃ lost, (freed (d ++ d') ++ lost).Perm (handed c xs)) ∧
    (∀ k v, get s k = .ok (some v) → ∃ vs, values s = .ok vs ∧ v ∈ vs) ∧
    ((handed c xs).Nodup → (∀ k v, get s k = .ok (some v) → some v ∉ d) ∧ (freed d).Nodup ∧
      ∀ d', destroy c s = .ok d' → (freed (d ++ d')).Nodup) := by
  obtain ⟨lost, hp, -⟩ := run_owns xs h
  have hp : (freed d ++ held s ++ lost).Perm (handed c xs) := by
    simpa [create, held, HSList.empty] using hp
  have hd : ∀ d', destroy c s = .ok d' → ∃ lost, (freed (d ++ d') ++ lost).Perm (handed c xs) := by
    intro d' hd'
    rw [freed_append, destroy_ok hd']
    cases c.dtor with
    | true => exact ⟨lost, hp⟩
    | false => exact ⟨held s ++ lost, by simpa using hp⟩
  refine ⟨⟨held s ++ lost, by simpa using hp⟩, ?_, hd, ?_, ?_⟩
  · intro vs hv
    rw [(values_ok hv).2]
    exact ⟨lost, hp⟩
  · intro k v hg
    exact ⟨_, get_held hg⟩
  · intro hn
    have hn' := hp.nodup_iff.2 hn
    rw [List.append_assoc] at hn'
    refine ⟨?_, (List.nodup_append.1 hn').1, ?_⟩
    · intro k v hg hm
      have h1 : v ∈ freed d := by
        simp only [freed, List.mem_filterMap, id]
        exact ⟨some v, hm, rfl⟩
      have h2 := (get_held hg).2
      exact (List.nodup_append.1 hn').2.2 v h1 v (by simp [h2]) rfl
    · intro d' hd'
      obtain ⟨lost', hl⟩ := hd d' hd'
      exact (List.nodup_append.1 (hl.nodup_iff.2 hn)).1

/-- Writes, a replacement and a removal; `c` is still held. -/
def aHistory : List (Call Nat) :=
  [.set b!"ab" (some 1), .set b!"c" (some 2), .set b!"ab" (some 3), .unset b!"ab"]

/-- What a history destroys, and what can be read afterwards. -/
def report {W : Type} (r : Res (Store W × List (Option W))) :
    Option (List (Option W) × Option (List (Bytes × W))) :=
  match r with
  | .ok (s, d) => some (d, (pairs s).toOption)
  | .error _ => none

example : report (run (owning id) ult create aHistory) =
      some ([some 1, some 3], some [(b!"c", 2)]) ∧
    handed (owning id) aHistory = [1, 2, 3] := by
  decide +kernel

/-! ## C116 everything is destroyed in the end -/

/-- **C116, partial.**  In a history in which no key is empty and none is a proper prefix of a string
given before, every pointer handed over is destroyed, once, by the time the dictionary has been destroyed.
Missing: other histories (`C116_false`, `C116_false_empty`). -/
theorem C116_partial (c : Calls V) (hc : c.dtor = true) (xs : List (Call V)) (ho : Orderly xs)
    {s : Store V} {d : List (Option V)} (h : run c lt create xs = .ok (s, d)) {d' : List (Option V)}
    (hd : destroy c s = .ok d') : (freed (d ++ d')).Perm (handed c xs) := by
  obtain ⟨lost, hp, hl⟩ := run_owns xs h
  have hl : lost = [] := hl hc ho (fun _ => False) (by
    simp only [create, TOKS]; exact RTree.tok_empty _ _) (by simp)
  subst hl
  rw [freed_append, destroy_ok hd, hc]
  simpa [create, held, HSList.empty] using hp

/-- What a history and the end of the dictionary destroy. -/
def endReport {W : Type} (c : Calls W) (xs : List (Call W)) : Option (List (Option W)) :=
  match run c ult create xs with
  | .ok (s, d) => match destroy c s with
    | .ok d' => some (d ++ d')
    | .error _ => none
  | .error _ => none

theorem properPrefix_length {k s : Bytes} (h : ProperPrefix k s) : k.length < s.length := by
  obtain ⟨b, bs, rfl⟩ := h
  simp

example : Orderly (.setN b!"ax" 2 (some 4) :: aHistory) ∧
    endReport (owning id) (.setN b!"ax" 2 (some 4) :: aHistory) =
      some [some 1, some 3, some 4, some 2] := by
  refine ⟨⟨by decide, ?_⟩, by decide +kernel⟩
  simp only [aHistory, List.pairwise_cons, List.mem_cons, List.not_mem_nil, or_false, forall_eq_or_imp,
    forall_eq, false_implies, implies_true, and_true, List.Pairwise.nil, written, given,
    Option.some.injEq, reduceCtorEq]
  refine ⟨⟨?_, ?_, ?_⟩, ⟨?_, ?_⟩, ?_⟩ <;> rintro k s rfl rfl h <;>
    first
    | exact absurd (properPrefix_length h) (by decide)
    | (obtain ⟨b, bs, e⟩ := h; simp at e)

/-- C116 is false: of "ab", "c", "a" the pointer stored for "c" is never destroyed. -/
theorem C116_false : ∃ (c : Calls Nat) (xs : List (Call Nat)) (s : Store Nat) (d d' : List (Option Nat)),
    c.dtor = true ∧ (∀ x ∈ xs, written x ≠ some []) ∧ run c ult create xs = .ok (s, d) ∧
    destroy c s = .ok d' ∧ 2 ∈ handed c xs ∧ some 2 ∉ d ++ d' :=
  ⟨owning id, [.set b!"ab" (some 1), .set b!"c" (some 2), .set b!"a" (some 3)],
    _, _, _, rfl, by decide, rfl, rfl, by decide, by decide⟩

/-- C116 is false: what is stored under the empty key is never destroyed (and cannot be read). -/
theorem C116_false_empty : ∃ (c : Calls Nat) (xs : List (Call Nat)) (s : Store Nat)
    (d d' : List (Option Nat)), c.dtor = true ∧ run c ult create xs = .ok (s, d) ∧
    destroy c s = .ok d' ∧ handed c xs = [1] ∧ d ++ d' = [] :=
  ⟨owning id, [.set [] (some 1)], _, _, _, rfl, rfl, rfl, by decide, rfl⟩

/-! ## C117 the plain dictionary is the object dictionary -/

/-- **C117.**  A plain dictionary with a destructor and an object dictionary given the same writes and
removals fault alike, or answer every read and listing alike; so C01 - C05 hold for both. -/
theorem C117_agrees (c : Calls V) (hc : c.dtor = true) (xs : List (Call V)) (hx : Whole xs) :
    (∀ f, runObj c lt RTree.create xs = .error f → run c lt create xs = .error f) ∧
    ∀ t, runObj c lt RTree.create xs = .ok t → (∃ S, Reach lt S t) ∧
      ∃ s d, run c lt create xs = .ok (s, d) ∧ (∀ k, get s k = .ok (t.get k)) ∧
        pairs s = .ok t.pairs ∧ keys s = .ok t.keys ∧ values s = .ok t.values ∧
        valuesWalk s = .ok t.valuesWalk := by
  have h := run_sim hc lt xs hx RTree.create
  constructor
  · intro f hf
    rw [hf] at h
    exact h
  · intro t ht
    rw [ht] at h
    obtain ⟨d, hd⟩ := h
    refine ⟨runObj_reach xs hx .create ht, _, d, hd, fun k => rfl, rfl, rfl, rfl, rfl⟩

example : Whole aHistory ∧
    (runObj (owning id) ult RTree.create aHistory).toOption.map (·.pairs) = some [(b!"c", 2)] := by
  refine ⟨?_, by decide +kernel⟩
  intro x hx
  simp only [aHistory, List.mem_cons, List.not_mem_nil, or_false] at hx
  rcases hx with rfl | rfl | rfl | rfl
  · exact ⟨_, .inl ⟨_, rfl⟩⟩
  · exact ⟨_, .inl ⟨_, rfl⟩⟩
  · exact ⟨_, .inl ⟨_, rfl⟩⟩
  · exact ⟨_, .inr rfl⟩

/-! ## C118 a write with a length -/

/-- **C118, partial.**  `comps_dict_set_n(d, k, n, v)` is `comps_dict_set` of the first `n` bytes when a
key that starts with them is present.
Missing: the other case (`C118_false`). -/
theorem C118_partial (c : Calls V) (s : Store V) (k : Bytes) (n : Nat) (hn : n ≤ k.length)
    (v : Option V) (k' : Bytes) (hk : k.take n <+: k') (w : V) (hg : get s k' = .ok (some w)) :
    setN c lt s k n v = set c lt s (k.take n) v := by
  cases s with
  | dangling => cases hg
  | live l =>
    have hg : RTree.getLoop k'.length k' l.items = some w := Except.ok.inj hg
    have hlen : (k.take n).length = n := by rw [List.length_take]; omega
    simp only [Radix.set, setN, Store.list, bind, Except.bind, hlen]
    have e1 : (k.take n).take n = k.take n := List.take_of_length_le (by omega)
    have e2 : (k.take n).drop n = [] := List.drop_eq_nil_of_le (by omega)
    rw [if_neg (by omega), if_neg (by omega), e1, e2,
      setLoop_present c lt _ (k.drop n) n (k.take n) l _ k' hk w hg]

/-- After every history in which no string starting with the first `n` bytes was given, `n` is ignored
and the whole string is the key. -/
theorem C118_whole (c : Calls V) (xs : List (Call V)) {s : Store V} {d : List (Option V)}
    (h : run c lt create xs = .ok (s, d)) (k : Bytes) (n : Nat) (hn : n ≤ k.length) (h0 : 0 < n)
    (hx : ∀ x ∈ xs, ∀ g, given x = some g → ¬ k.take n <+: g) (v : Option V) :
    setN c lt s k n v = set c lt s k v := by
  have hb := run_below xs h (fun p => ¬ k.take n <+: p) (fun p q hpq hq hp => hq (hp.trans hpq))
    (by simp only [create, AllS]; exact RTree.alln_empty _ _) hx
  cases s with
  | dangling => rfl
  | live l =>
    simp only [Radix.set, setN, Store.list, bind, Except.bind, List.take_length, List.drop_length]
    rw [if_neg (by omega), if_neg (by omega)]
    have hne : k.take n ≠ [] := by
      intro e
      have := congrArg List.length e
      rw [List.length_take, List.length_nil] at this
      omega
    rw [setLoop_absent c lt _ (k.drop n) n k.length (k.take n) [] l hne
      (by rw [List.length_take]; omega) (by rw [List.take_append_drop]; omega) hb, List.take_append_drop]

/-- "abc" is present, so a write of "ab|z" changes "ab" only. -/
example : report (run (owning id) ult create [.set b!"abc" (some 1), .setN b!"abz" 2 (some 2)]) =
    some ([], some [(b!"ab", 2), (b!"abc", 1)]) := by decide +kernel

/-- C118 is false: a write of the first byte of "abc" into an empty dictionary sets "abc". -/
theorem C118_false : ∃ (c : Calls Nat) (k : Bytes) (n : Nat) (s : Store Nat) (d : List (Option Nat)),
    n ≤ k.length ∧ setN c ult create k n (some 1) = .ok (s, d) ∧ get s (k.take n) = .ok none ∧
    get s k = .ok (some 1) :=
  ⟨owning id, b!"abc", 1, _, _, by decide, rfl, by rfl, by rfl⟩

/-! ## C119 union -/

/-- **C119.**  `comps_dict_union(d1, d2)` of two dictionaries made by writes and removals does not fault;
it has the keys of both, with clones of the values, and the first operand wins.  All that it holds or
destroys are clones it made, each once.  (Without a constructor; with one, clones go through it.) -/
theorem C119_union (c1 c2 : Calls V) (h1 : c1.dtor = true) (h2 : c2.dtor = true) {f1 f2 : V → V}
    (e1 : c1.cloner = some f1) (e2 : c2.cloner = some f2) (hn : c2.ctor = none)
    (xs1 xs2 : List (Call V)) (w1 : Whole xs1) (w2 : Whole xs2) {s1 s2 : Store V}
    {d1 d2 : List (Option V)} (r1 : run c1 lt create xs1 = .ok (s1, d1))
    (r2 : run c2 lt create xs2 = .ok (s2, d2)) :
    ∃ s d, union c1 c2 lt s1 s2 = .ok (s, d) ∧
      (∀ k a b, get s1 k = .ok a → get s2 k = .ok b → get s k = .ok ((a.map f1).or (b.map f2))) ∧
      ∃ vs1 vs2 vs, values s1 = .ok vs1 ∧ values s2 = .ok vs2 ∧ values s = .ok vs ∧
        (freed d ++ vs).Perm (vs2.map f2 ++ vs1.map f1) := by
  -- the operands as trees
  have live : ∀ (c : Calls V) (hc : c.dtor = true) (xs : List (Call V)) (w : Whole xs) (s : Store V)
      (d : List (Option V)), run c lt create xs = .ok (s, d) →
      ∃ t : RTree V, s = .live t.subnodes ∧ ∃ S, Reach lt S t := by
    intro c hc xs w s d hr
    have hs := run_sim hc lt xs w RTree.create
    cases ht : runObj c lt RTree.create xs with
    | error f =>
      rw [ht] at hs
      have hs : run c lt create xs = .error f := hs
      rw [hr] at hs; cases hs
    | ok t =>
      rw [ht] at hs
      obtain ⟨d', hd'⟩ := hs
      have hd' : run c lt create xs = .ok (.live t.subnodes, d') := hd'
      rw [hr] at hd'; cases hd'
      exact ⟨t, rfl, runObj_reach xs w .create ht⟩
  obtain ⟨t1, rfl, S1, q1⟩ := live c1 h1 xs1 w1 s1 d1 r1
  obtain ⟨t2, rfl, S2, q2⟩ := live c2 h2 xs2 w2 s2 d2 r2
  have hw1 := (reach_inv q1).wf
  have hw2 := (reach_inv q2).wf
  have wc : RTree.WF (t2.clone f2).subnodes := by
    rw [RTree.clone_subnodes]; exact RTree.cloneHS_wf f2 hw2
  have tc : RTree.TOK (fun _ => False) [] (t2.clone f2).subnodes := by
    rw [RTree.clone_subnodes]; exact RTree.cloneHS_tok f2 _ _ hw2
  -- the union is a history of writes
  have hu : union c1 c2 lt (.live t1.subnodes) (.live t2.subnodes) =
      run c2 lt (.live (t2.clone f2).subnodes) (cloneCalls f1 (RTree.uniteWrites t1)) := by
    simp only [union, clone_live e2, bind, Except.bind, unite_run e1]
  have hs := run_sim h2 lt _ (cloneCalls_whole f1 (RTree.uniteWrites t1)) (t2.clone f2)
  rw [runObj_clone hn] at hs
  obtain ⟨d, hd⟩ := hs
  refine ⟨_, d, hu.trans hd, ?_, ?_⟩
  · intro k a b ha hb
    have ha : t1.get k = a := Except.ok.inj ha
    have hb : t2.get k = b := Except.ok.inj hb
    have hperm := RTree.uniteWrites_perm t1
    have hnd : ((RTree.uniteWrites t1).map fun w => (w.1, some (f1 w.2))).Pairwise
        fun a b => a.1 ≠ b.1 := by
      rw [List.pairwise_map]
      exact (List.Perm.pairwise_iff (fun h => Ne.symm h) hperm).2 (RTree.pairs_nodup hw1)
    have hkey : ∀ e ∈ RTree.uniteWrites t1, t1.get e.1 = some e.2 := fun e he =>
      (RTree.mem_pairs hw1 _ _).1 (hperm.mem_iff.1 he)
    have hg := RTree.setAll_get lt ((RTree.uniteWrites t1).map fun w => (w.1, some (f1 w.2)))
      (fun _ => False) wc tc (by
        intro e he
        simp only [List.mem_map] at he
        obtain ⟨e', he', rfl⟩ := he
        have := hkey e' he'
        intro hnil
        simp only at hnil
        rw [hnil] at this
        simp [RTree.get, RTree.getLoop] at this) (by simp) (by
        rw [List.pairwise_map]
        refine (RTree.uniteWrites_order hw1).imp ?_
        rintro a b hab ⟨c, cs, e⟩
        exact hab ⟨c :: cs, e.symm⟩) k
    show Except.ok (RTree.get _ k) = _
    rw [hg]
    have hcl : (t2.clone f2).get k = b.map f2 := by
      rw [RTree.get_eq wc, RTree.clone_subnodes, ← hb, RTree.get_eq hw2]
      exact RTree.listLk_clone f2 hw2 k
    congr 1
    cases ha' : a with
    | none =>
      rw [ha'] at ha
      simp only [Option.map_none, Option.none_or]
      rw [← hcl]
      apply RTree.writes_not_mem
      intro e he hek
      simp only [List.mem_map] at he
      obtain ⟨e', he', rfl⟩ := he
      have := hkey e' he'
      simp only at hek
      rw [hek, ha] at this
      simp at this
    | some v =>
      rw [ha'] at ha
      simp only [Option.map_some, Option.some_or]
      apply RTree.writes_mem _ _ _ _ _ hnd
      simp only [List.mem_map]
      exact ⟨(k, v), hperm.mem_iff.2 ((RTree.mem_pairs hw1 k v).2 ha), rfl⟩
  · refine ⟨_, _, _, values_live _, values_live _, values_live _, ?_⟩
    obtain ⟨lost, hp, hl⟩ := run_owns _ hd
    have hl : lost = [] := by
      refine hl h2 ⟨?_, ?_⟩ (fun _ => False) tc (by simp)
      · intro x hx
        simp only [cloneCalls, List.mem_map] at hx
        obtain ⟨w, hw, rfl⟩ := hx
        intro e
        have := (RTree.mem_pairs hw1 _ _).1 ((RTree.uniteWrites_perm t1).mem_iff.1 hw)
        simp only [written, Option.some.injEq] at e
        rw [e] at this
        simp [RTree.get, RTree.getLoop] at this
      · rw [cloneCalls, List.pairwise_map]
        refine (RTree.uniteWrites_order hw1).imp ?_
        rintro a b hab k s hk hs ⟨c, cs, e⟩
        simp only [written, given, Option.some.injEq] at hk hs
        subst hk; subst hs
        exact hab ⟨c :: cs, e.symm⟩
    subst hl
    simp only [List.append_nil, held] at hp
    refine hp.trans ?_
    have p2 : dropList (t2.clone f2).subnodes.items = (dropList t2.subnodes.items).map f2 := by
      rw [← preL_vals [], ← preL_vals [], RTree.clone_subnodes,
        show RTree.preL [] (RTree.cloneHS f2 t2.subnodes.items).items = _ from
          RTree.preL_clone f2 hw2 []]
      simp
    have p1 : (handed c2 (cloneCalls f1 (RTree.uniteWrites t1))).Perm
        ((dropList t1.subnodes.items).map f1) := by
      have e : handed c2 (cloneCalls f1 (RTree.uniteWrites t1)) =
          (RTree.uniteWrites t1).map fun w => f1 w.2 := by
        simp only [handed, cloneCalls, List.flatMap_map]
        induction RTree.uniteWrites t1 with
        | nil => rfl
        | cons w ws ih =>
          rw [List.flatMap_cons, ih]
          simp [handedBy, made, hn]
      rw [e, ← preL_vals [], ← RTree.pairs_eq]
      refine ((RTree.uniteWrites_perm t1).map _).trans ?_
      rw [List.map_map]
      exact List.Perm.refl _
    rw [p2]
    exact p1.append_left _

example : report (match run (owning (· + 10)) ult create [.set b!"a" (some 1), .set b!"b" (some 2)],
      run (owning (· + 20)) ult create [.set b!"bc" (some 3), .set b!"b" (some 4)] with
    | .ok (s1, _), .ok (s2, _) => union (owning (· + 10)) (owning (· + 20)) ult s1 s2
    | _, _ => .error .nullDeref) =
    some ([some 24], some [(b!"a", 11), (b!"b", 12), (b!"bc", 23)]) := by decide +kernel

/-! ## C120 clearing -/

/-- **C120, partial.**  Clearing destroys what the dictionary holds, each pointer once, and a dictionary
without keys can be used afterwards.
Missing: use after clearing any other (`C120_false`). -/
theorem C120_partial (c : Calls V) (hc : c.dtor = true) :
    (∀ s vs, values s = .ok vs → ∃ s' d, clear c s = .ok (s', d) ∧ d = vs.map some) ∧
    clear c (create : Store V) = .ok (create, []) := by
  refine ⟨?_, rfl⟩
  intro s vs hv
  obtain ⟨⟨l, rfl⟩, rfl⟩ := values_ok hv
  simp only [clear, Store.list, bind, Except.bind, held]
  cases hl : l.items with
  | nil => exact ⟨_, _, rfl, by simp⟩
  | cons n ns => exact ⟨_, _, rfl, by simp [dropped, hc]⟩

example : report (run (owning id) ult create [.set b!"ab" (some 1), .set b!"c" (some 2), .clear]) =
    some ([some 1, some 2], none) := by decide +kernel

/-- C120 is false: whatever is done with a dictionary that had a key after it was cleared uses freed
memory: a read, a listing, a write, a removal, another clearing, and destroying it. -/
theorem C120_false (c : Calls V) {s : Store V} {k : Bytes} {w : V} (hg : get s k = .ok (some w)) :
    ∃ s' d, clear c s = .ok (s', d) ∧ (∀ k, get s' k = .error .useAfterFree) ∧
      pairs s' = .error .useAfterFree ∧ destroy c s' = .error .useAfterFree ∧
      ∀ x, call c lt s' x = .error .useAfterFree := by
  cases s with
  | dangling => cases hg
  | live l =>
    simp only [clear, Store.list, bind, Except.bind]
    cases hl : l.items with
    | nil =>
      have := (get_held hg).2
      simp [held, hl] at this
    | cons n ns =>
      refine ⟨_, _, rfl, fun _ => rfl, rfl, rfl, fun x => ?_⟩
      cases x <;> rfl

example : ∃ s d, run (owning id) ult create aHistory = .ok (s, d) ∧ get s b!"c" = .ok (some 2) :=
  ⟨_, _, rfl, by rfl⟩

/-! ## C121 what a write and a removal destroy -/

/-- **C121, partial.**  A write passes the pointer it replaces to the destructor and no other.  A removal
passes the removed pointer to it.
Missing: that a removal destroys nothing else (`C121_false`). -/
theorem C121_partial (c : Calls V) (hc : c.dtor = true) (s s' : Store V) (k : Bytes)
    (d : List (Option V)) (old : Option V) (hg : get s k = .ok old) :
    (∀ v, set c lt s k v = .ok (s', d) → freed d = old.toList) ∧
    (∀ w, old = some w → unset c s k = .ok (s', d) → some w ∈ d) := by
  constructor
  · intro v h
    obtain ⟨l, l', rfl, rfl, -, hl⟩ := setN_inv (n := k.length) h
    have hg : RTree.getLoop k.length k l.items = old := Except.ok.inj hg
    rw [setLoop_destroys _ _ _ _ _ _ _ _ _ hl, List.take_length, hg]
  · intro w hw h
    subst hw
    obtain ⟨l, rfl, ⟨h1, rfl, rfl⟩ | ⟨l', rfl, h1⟩⟩ := unset_inv h
    · exfalso
      have hg : RTree.getLoop k.length k l.items = some w := Except.ok.inj hg
      rw [unsetLoop_absent _ _ _ _ h1] at hg
      cases hg
    · exact unsetLoop_destroys c hc _ _ _ _ _ _ h1 w (Except.ok.inj hg)

/-- **C121, partial.**  A removal that returns, from any dictionary, takes out pairs whose keys begin with
the key removed, leaves all other pairs, and passes exactly the values it takes out to the destructor.
Missing: that only the pair of the key itself is taken out (`C121_false`). -/
theorem C121_removal_partial (c : Calls V) (hc : c.dtor = true) (s s' : Store V) (k : Bytes)
    (d : List (Option V)) (h : unset c s k = .ok (s', d)) :
    ∃ ps ps' out, pairs s = .ok ps ∧ pairs s' = .ok ps' ∧ ps.Perm (out ++ ps') ∧
      freed d = out.map (·.2) ∧ ∀ e ∈ out, k <+: e.1 := by
  obtain ⟨l, rfl, ⟨h1, rfl, rfl⟩ | ⟨l', rfl, h1⟩⟩ := unset_inv h
  · exact ⟨_, _, [], pairs_live l, pairs_live l, .refl _, rfl, nofun⟩
  · obtain ⟨out, p1, p2, p3⟩ := unsetLoop_pairs c hc _ _ _ [] _ _ _ h1
    exact ⟨_, _, out, pairs_live l, pairs_live l', p1, p2, p3⟩

/-- "ab" goes with "a"; "b" stays. -/
example : report (run (owning id) ult create
    [.set b!"a" (some 1), .set b!"ab" (some 2), .set b!"b" (some 3), .unset b!"a"]) =
    some ([some 1, some 2], some [(b!"b", 3)]) := by decide +kernel

/-- The removal of "a" from {"a", "ab"} destroys the value of "ab" too. -/
theorem C121_false : ∃ (s s' : Store Nat) (d0 d : List (Option Nat)),
    run (owning id) ult create [.set b!"a" (some 1), .set b!"ab" (some 2)] = .ok (s, d0) ∧
    unset (owning id) s b!"a" = .ok (s', d) ∧ d = [some 1, some 2] :=
  ⟨_, _, _, _, rfl, rfl, rfl⟩

/-- The destructor is also called with NULL: the removal of "de", never written, from {"def", "desc"}. -/
example : report (run (owning id) ult create
    [.set b!"def" (some 1), .set b!"desc" (some 2), .unset b!"de"]) =
    some ([none], some [(b!"def", 1), (b!"desc", 2)]) := by decide +kernel

/-- Without a destructor a replacement calls a NULL function. -/
example : (run ⟨none, none, false⟩ ult create [.set b!"a" (some 1), .set b!"a" (some 2)] :
    Res (Store Nat × List (Option Nat))) = .error .nullDeref := rfl

end Comps.Props.Radix

section
open Comps.Props.Radix
#print axioms C115_freed_once
#print axioms C116_partial
#print axioms C116_false
#print axioms C116_false_empty
#print axioms C117_agrees
#print axioms C118_partial
#print axioms C118_whole
#print axioms C118_false
#print axioms C119_union
#print axioms C120_partial
#print axioms C120_false
#print axioms C121_partial
#print axioms C121_removal_partial
#print axioms C121_false
end
