import Verif.Lemmas.BRadix

/-!
# Properties of the dictionary with keys of any kind (C147 - C152)

`COMPS_BRTree` with the key functions of check_brtree.c: keys are byte strings with a length.
-/

namespace Comps.Props.BRadix
open Comps Comps.BRadix
open Comps.Radix (Calls Store)
open Comps.Spec Comps.Spec.BDict
open Comps.Spec.Plain (freed made)
variable {V : Type}

/-- Values that are stored as they are, copied with `f`, and destroyed. -/
def owning (f : V → V) : Calls V := ⟨none, some f, true⟩

/-- The writes of the examples: keys of two bytes, one of them NUL, with a common part and a
replacement. -/
def aHistory : List (Bytes × Option Nat) :=
  [([1, 2], some 1), ([1, 0], some 2), ([7, 7], some 3), ([1, 2], some 4)]

theorem aHistory_fixed : FixedLength 2 aHistory := ⟨by decide, by decide⟩

/-- What can be read, and what was destroyed. -/
def report {W : Type} (r : Res (Store W × List (Option W))) :
    Option (List (Option W) × Option (List (Bytes × W))) :=
  match r with
  | .ok (s, d) => some (d, (pairs s).toOption)
  | .error _ => none

/-! ## C147 keys of one length -/

/-- The map part for every orderly history. -/
theorem map_of_orderly (c : Calls V) (hc : c.dtor = true) (ws : List (Bytes × Option V))
    (ho : Orderly ws) :
    ∃ s d, sets c create ws = .ok (s, d) ∧
      (∀ k, get s k = .ok (FMap.writes FMap.none (stored c ws) k)) ∧
      ∃ ps vs, pairs s = .ok ps ∧ keys s = .ok (ps.map (·.1)) ∧ values s = .ok vs ∧
        vs.Perm (ps.map (·.2)) ∧ ps.Pairwise (fun a b => a.1 ≠ b.1) ∧
        ∀ k v, (k, v) ∈ ps ↔ FMap.writes FMap.none (stored c ws) k = some v := by
  obtain ⟨l, d, h1, h2, h3, -⟩ := sets_spec c hc ws (fun _ => False) HSList.empty (inv_empty _ _)
    (by simp) ho
  have h3 : RTree.listLk l.items = FMap.writes FMap.none (stored c ws) := by
    rw [h3]; congr 1
  obtain ⟨ps, p1, p2⟩ := pairs_live l
  obtain ⟨ps', p1', p3, p4⟩ := pairs_spec _ l h2
  have : ps' = ps := by rw [p1] at p1'; injection p1' with h; exact h.symm
  subst this
  obtain ⟨vs, v1, v2⟩ := values_live l
  refine ⟨.live l, d, h1, fun k => ?_, ps', vs, p1, ?_, v1, ?_, p3, ?_⟩
  · rw [get_live _ _ l h2, h3]
  · simp only [keys, p1, bind, Except.bind]
  · refine v2.trans ?_
    rw [← Radix.preL_vals []]
    exact (p2.map _).symm
  · rw [← h3]; exact p4

/-- **C147.**  If all keys have one length, as the binary keys the dictionary is made for, it is a finite
map: every key reads as the value written last, and the listings give every key that has a value once,
with that value. -/
theorem C147_map (c : Calls V) (hc : c.dtor = true) (n : Nat) (ws : List (Bytes × Option V))
    (hn : FixedLength n ws) :
    ∃ s d, sets c create ws = .ok (s, d) ∧
      (∀ k, get s k = .ok (FMap.writes FMap.none (stored c ws) k)) ∧
      ∃ ps vs, pairs s = .ok ps ∧ keys s = .ok (ps.map (·.1)) ∧ values s = .ok vs ∧
        vs.Perm (ps.map (·.2)) ∧ ps.Pairwise (fun a b => a.1 ≠ b.1) ∧
        ∀ k v, (k, v) ∈ ps ↔ FMap.writes FMap.none (stored c ws) k = some v :=
  map_of_orderly c hc ws (orderly_of_fixed hn)

example : FixedLength 2 aHistory ∧ report (sets (owning id) create aHistory) =
    some ([some 1], some [([7, 7], 3), ([1, 0], 2), ([1, 2], 4)]) :=
  ⟨aHistory_fixed, by decide +kernel⟩

/-! ## C148 each value is destroyed once -/

/-- The ownership part for every orderly history. -/
theorem owns_of_orderly (c : Calls V) (hc : c.dtor = true) (xs : List (Call V))
    (ho : Orderly (writesOf xs)) {s : Store V} {d : List (Option V)}
    (h : run c create xs = .ok (s, d)) :
    ∃ vs d', values s = .ok vs ∧ destroy c s = .ok d' ∧
      (freed (d ++ d')).Perm (given c (writesOf xs)) ∧
      (freed d ++ vs).Perm (given c (writesOf xs)) := by
  obtain ⟨l, W, rfl, -, h2⟩ := run_inv c hc xs (fun _ => False) HSList.empty s d (inv_empty _ _)
    (by simp) ho h
  have h2 : (freed d ++ Radix.dropList l.items).Perm (given c (writesOf xs)) := by
    simpa [HSList.empty] using h2
  obtain ⟨vs, v1, v2⟩ := values_live l
  refine ⟨vs, _, v1, destroy_live c hc l, ?_, ?_⟩
  · rw [Radix.freed_append, Radix.freed_some]; exact h2
  · exact (v2.append_left _).trans h2

/-- **C148.**  With keys of one length, after every history of writes and removals that runs to its end,
every pointer given to the dictionary has been destroyed once or is listed once, and all have been
destroyed once when the dictionary has been destroyed.  So if the pointers differ, none is destroyed twice
and none that is listed has been destroyed. -/
theorem C148_owned (c : Calls V) (hc : c.dtor = true) (n : Nat) (xs : List (Call V))
    (hn : FixedLength n (writesOf xs)) {s : Store V} {d : List (Option V)}
    (h : run c create xs = .ok (s, d)) :
    ∃ vs d', values s = .ok vs ∧ destroy c s = .ok d' ∧
      (freed (d ++ d')).Perm (given c (writesOf xs)) ∧
      (freed d ++ vs).Perm (given c (writesOf xs)) ∧
      ((given c (writesOf xs)).Nodup → (freed (d ++ d')).Nodup ∧ ∀ v ∈ vs, v ∉ freed d) := by
  obtain ⟨vs, d', h1, h2, h3, h4⟩ := owns_of_orderly c hc xs (orderly_of_fixed hn) h
  refine ⟨vs, d', h1, h2, h3, h4, fun hd => ⟨h3.nodup_iff.2 hd, fun v hv hf => ?_⟩⟩
  exact (List.nodup_append.1 (h4.nodup_iff.2 hd)).2.2 v hf v hv rfl

/-- Writes, a removal that finds its key, and what it leaves. -/
def aRun : List (Call Nat) :=
  [.set [1, 2] (some 1), .set [7, 7] (some 2), .set [1, 2] (some 3), .unset [1, 2]]

example : FixedLength 2 (writesOf aRun) ∧ report (run (owning id) create aRun) =
    some ([some 1, some 3], some [([7, 7], 2)]) := by
  refine ⟨⟨by decide, by decide⟩, by decide +kernel⟩

/-! ## C149 keys of any length -/

/-- **C149, partial.**  C147 and C148 hold for all histories in which no key is empty and no key is a
proper prefix of one written before.  Missing: other histories (`C149_false`, `C149_false_range`,
`C149_false_empty`). -/
theorem C149_partial (c : Calls V) (hc : c.dtor = true) :
    (∀ ws : List (Bytes × Option V), Orderly ws → ∃ s d, sets c create ws = .ok (s, d) ∧
      (∀ k, get s k = .ok (FMap.writes FMap.none (stored c ws) k)) ∧
      ∃ ps vs, pairs s = .ok ps ∧ keys s = .ok (ps.map (·.1)) ∧ values s = .ok vs ∧
        vs.Perm (ps.map (·.2)) ∧ ps.Pairwise (fun a b => a.1 ≠ b.1) ∧
        ∀ k v, (k, v) ∈ ps ↔ FMap.writes FMap.none (stored c ws) k = some v) ∧
    (∀ (xs : List (Call V)) (s : Store V) (d : List (Option V)), Orderly (writesOf xs) →
      run c create xs = .ok (s, d) → ∃ vs d', values s = .ok vs ∧ destroy c s = .ok d' ∧
        (freed (d ++ d')).Perm (given c (writesOf xs)) ∧
        (freed d ++ vs).Perm (given c (writesOf xs))) :=
  ⟨map_of_orderly c hc, fun xs _ _ ho h => owns_of_orderly c hc xs ho h⟩

example : Orderly [(b!"ab", some 1), (b!"abc", some 2), (b!"b", some (3 : Nat))] ∧
    report (sets (owning id) create [(b!"ab", some 1), (b!"abc", some 2), (b!"b", some (3 : Nat))]) =
      some ([], some [(b!"ab", 1), (b!"b", 3), (b!"abc", 2)]) := by
  refine ⟨⟨by decide, ?_⟩, by decide +kernel⟩
  simp only [List.pairwise_cons, List.mem_cons, List.not_mem_nil, or_false, forall_eq_or_imp, forall_eq,
    false_implies, implies_true, and_true, List.Pairwise.nil]
  refine ⟨⟨?_, ?_⟩, ?_⟩ <;> rintro ⟨b, bs, e⟩ <;> simp at e

/-- C149 is false: after "abc" and "a", the value of "abc" is found under "ab". -/
theorem C149_false : ∃ (s : Store Nat) (d : List (Option Nat)),
    sets (owning id) create [(b!"abc", some 1), (b!"a", some 2)] = .ok (s, d) ∧
    get s b!"abc" = .ok none ∧ get s b!"ab" = .ok (some 1) :=
  ⟨_, _, rfl, rfl, rfl⟩

/-- C149 is false: after "ab", writing "a" leaves the value of "ab" where no key reads it; after "abc",
writing "ab" copies past the end of a key. -/
theorem C149_false_range :
    (∃ (s : Store Nat) (d : List (Option Nat)),
      sets (owning id) create [(b!"ab", some 1), (b!"a", some 2)] = .ok (s, d) ∧
      get s b!"ab" = .ok none ∧ pairs s = .ok [(b!"a", 2), (b!"a", 1)]) ∧
    sets (owning id) create [(b!"abc", some 1), (b!"ab", some (2 : Nat))] = .error .outOfBounds :=
  ⟨⟨_, _, rfl, rfl, rfl⟩, rfl⟩

/-- C149 is false: the value written for the empty key is neither held nor destroyed. -/
theorem C149_false_empty (c : Calls V) (v : Option V) (s : Store V) :
    set c s [] v = (do let l ← s.list; .ok (.live l, [])) := by
  cases s <;> rfl

/-- C149 is false without a destructor: replacing a value calls a NULL pointer. -/
theorem C149_false_destructor :
    sets ⟨none, none, false⟩ create [(b!"a", some 1), (b!"a", some (2 : Nat))] = .error .nullDeref := rfl

/-! ## C150 removals -/

/-- **C150, partial.**  A removal that does not fault does nothing, or it removes one key that is as long
as the one given and destroys its value, and every other key keeps its value.  Missing: that the key
removed is the one given (`C150_false`), and that there is no fault (`C150_false_fault`). -/
theorem C150_partial (c : Calls V) (hc : c.dtor = true) (xs : List (Call V))
    (ho : Orderly (writesOf xs)) {s : Store V} {d : List (Option V)}
    (h : run c create xs = .ok (s, d)) (k : Bytes) {s' : Store V} {d' : List (Option V)}
    (hu : unset c s k = .ok (s', d')) :
    (s' = s ∧ d' = []) ∨ ∃ k' v, k'.length = k.length ∧ get s k' = .ok v ∧ freed d' = v.toList ∧
      ∀ q, get s' q = if q = k' then .ok none else get s q := by
  obtain ⟨l, W, rfl, hi, -⟩ := run_inv c hc xs (fun _ => False) HSList.empty s d (inv_empty _ _)
    (by simp) ho h
  obtain ⟨l', rfl, hi', -, hr⟩ := unset_live c hc W l k s' d' hi hu
  rcases hr with ⟨h1, h2⟩ | ⟨k', h1, h2, h3⟩
  · exact .inl ⟨h1, h2⟩
  · refine .inr ⟨k', _, h1, get_live _ _ l hi k', h3, fun q => ?_⟩
    rw [get_live _ _ l' hi', get_live _ _ l hi, h2]
    split <;> rfl

/-- Of two keys with a common first byte one is removed; the other stays. -/
example : report (run (owning id) create [.set [1, 2] (some 1), .set [1, 0] (some (2 : Nat)), .unset [1, 0]]) =
    some ([some 2], some [([1, 2], 1)]) := by decide +kernel

/-- A removal of the only key there is does what it should. -/
theorem C150_single_partial (c : Calls V) (hc : c.dtor = true) (k : Bytes) (hk : k ≠ []) (v : Option V) :
    ∃ s d, run c create [.set k v, .unset k] = .ok (s, d) ∧ freed d = (made c v).toList ∧
      ∀ q, get s q = .ok none := by
  cases k with
  | nil => exact (hk rfl).elim
  | cons b bs =>
    obtain ⟨y, hy⟩ := matchFrom_self bs 1
    have hm : RTree.matchKey (b :: bs) (b :: bs) = .both y := hy
    have h1 : set c create (b :: bs) v =
        .ok (.live ⟨[Node.leaf (b :: bs) (Radix.newData c v)], true⟩, []) := rfl
    have h2 : unset c (.live ⟨[Node.leaf (b :: bs) (Radix.newData c v)], true⟩) (b :: bs) =
        .ok (.live HSList.empty, (made c v).toList.map some) := by
      have hm' : RTree.matchKey (Node.leaf (b :: bs) (Radix.newData c v)).key (b :: bs) = .both y := hm
      simp only [unset, Store.list, bind, Except.bind, List.length_cons, unsetLoop, hm']
      simp only [Node.leaf, Node.tail, Node.key, List.isEmpty_cons, Bool.false_eq_true, if_false,
        Bool.false_and, Radix.dropped, hc, if_true, HSList.removeAt]
      rw [Radix.dropNode_eq]
      simp [HSList.empty]
      rfl
    refine ⟨.live HSList.empty, (made c v).toList.map some, ?_, Radix.freed_some _, ?_⟩
    · simp only [run, h1, h2, bind, Except.bind, List.nil_append, List.append_nil]
    · intro q
      rw [get_live (fun _ => False) [] _ (inv_empty _ _)]
      simp [RTree.listLk]

/-- C150 is false: removing "ab", which is not there, removes "cb". -/
theorem C150_false : ∃ (s s' : Store Nat) (d d' : List (Option Nat)),
    sets (owning id) create [(b!"cb", some 1)] = .ok (s, d) ∧ get s b!"cb" = .ok (some 1) ∧
    unset (owning id) s b!"ab" = .ok (s', d') ∧ get s' b!"cb" = .ok none ∧ d' = [some 1] :=
  ⟨_, _, _, _, rfl, rfl, rfl, rfl, rfl⟩

/-- C150 is false: a key that is not in the list's first node is not removed. -/
theorem C150_false_kept : ∃ (s s' : Store Nat) (d d' : List (Option Nat)),
    sets (owning id) create [(b!"axx", some 1), (b!"b", some 2)] = .ok (s, d) ∧
    unset (owning id) s b!"b" = .ok (s', d') ∧ get s' b!"b" = .ok (some 2) :=
  ⟨_, _, _, _, rfl, rfl, rfl⟩

/-- C150 is false: removing "abc" after "ab" and "abc" reads memory that was freed. -/
theorem C150_false_fault : ∃ (s : Store Nat) (d : List (Option Nat)),
    sets (owning id) create [(b!"ab", some 1), (b!"abc", some 2)] = .ok (s, d) ∧
    unset (owning id) s b!"abc" = .error .useAfterFree :=
  ⟨_, _, rfl, rfl⟩

/-! ## C151 copies -/

/-- **C151, partial.**  A copy of a dictionary, if making it does not pass NULL to the cloner, reads like
the original with every value copied.  If no two different keys begin with the same byte and no value is
NULL, it does not pass NULL to the cloner.  Missing: other dictionaries (`C151_false`). -/
theorem C151_partial (c : Calls V) (hc : c.dtor = true) (f : V → V) (hf : c.cloner = some f)
    (ws : List (Bytes × Option V)) (ho : Orderly ws) {s : Store V} {d : List (Option V)}
    (h : sets c create ws = .ok (s, d)) :
    (clone c s = .error .nullDeref ∨ ∃ t, clone c s = .ok t ∧
      ∀ k, ∃ v, get s k = .ok v ∧ get t k = .ok (v.map f)) ∧
    ((∀ e ∈ ws, made c e.2 ≠ none) → (ws.Pairwise fun a b => a.1 = b.1 ∨ a.1.head? ≠ b.1.head?) →
      ∃ t, clone c s = .ok t ∧ ∀ k, ∃ v, get s k = .ok v ∧ get t k = .ok (v.map f)) := by
  obtain ⟨l, d0, h1, hi, -, -⟩ := sets_spec c hc ws (fun _ => False) HSList.empty (inv_empty _ _)
    (by simp) ho
  have h1' : sets c create ws = .ok (.live l, d0) := h1
  rw [h] at h1'
  injection h1' with h1'; injection h1' with e1 e2
  subst e1 e2
  have main := clone_spec c f hf l _ hi
  have good : (∃ l', clone c (.live l) = .ok (.live l') ∧
      Inv (fun w => False ∨ ∃ e ∈ ws, e.1 = w) [] l' ∧ ∀ k, RTree.listLk l'.items k = (RTree.listLk l.items k).map f) →
      ∃ t, clone c (.live l) = .ok t ∧ ∀ k, ∃ v, get (.live l) k = .ok v ∧ get t k = .ok (v.map f) := by
    rintro ⟨l', j1, j2, j3⟩
    exact ⟨_, j1, fun k => ⟨_, get_live _ _ l hi k, by rw [get_live _ _ l' j2, j3]⟩⟩
  refine ⟨main.imp id good, fun hv hp => ?_⟩
  have hall := sets_flat c hc ws (fun _ => False) HSList.empty l d (inv_empty _ _)
    (by intro n hn; simp at hn) ho.1 (fun e he => by
      cases hm : made c e.2 with
      | none => exact (hv e he hm).elim
      | some _ => rfl) (by simp) hp h1
  rcases main with hbad | hgood
  · exfalso
    simp only [clone, Store.list, bind, Except.bind, hf] at hbad
    rw [if_pos (by simpa using hall)] at hbad
    cases hbad
  · exact good hgood

example : clone (owning (· + 10)) (.live ⟨[Node.leaf [1, 2] (some 1), Node.leaf [7, 7] (some 3)], true⟩) =
    .ok (.live ⟨[Node.leaf [1, 2] (some 11), Node.leaf [7, 7] (some 13)], true⟩) ∧
    sets (owning (· + 10)) create [([1, 2], some 1), ([7, 7], some 3)] =
      .ok (.live ⟨[Node.leaf [1, 2] (some 1), Node.leaf [7, 7] (some 3)], true⟩, []) := by
  refine ⟨?_, rfl⟩
  simp only [clone, Store.list, owning, bind, Except.bind, RTree.cloneList_eq, RTree.ofAppends_eq,
    List.map_cons, List.map_nil, RTree.cloneNode_eq]
  rfl

/-- C151 is false: two keys of two bytes with the same first byte, and the cloner gets NULL. -/
theorem C151_false : ∃ (s : Store Nat) (d : List (Option Nat)),
    sets (owning id) create [([1, 2], some 1), ([1, 0], some 2)] = .ok (s, d) ∧
    clone (owning id) s = .error .nullDeref :=
  ⟨_, _, rfl, rfl⟩

/-! ## C152 clearing -/

/-- **C152, partial.**  Clearing destroys what the dictionary lists, each pointer once, and a dictionary
without keys can be used afterwards.
Missing: use after clearing any other (`C152_false`). -/
theorem C152_partial (c : Calls V) (hc : c.dtor = true) :
    (∀ s vs, values s = .ok vs → ∃ s' d, clear c s = .ok (s', d) ∧ d.Perm (vs.map some)) ∧
    clear c (create : Store V) = .ok (create, []) := by
  refine ⟨?_, rfl⟩
  intro s vs hv
  cases s with
  | dangling => cases hv
  | live l =>
    obtain ⟨vs', v1, v2⟩ := values_live l
    rw [hv] at v1
    injection v1 with v1
    subst v1
    simp only [clear, Store.list, bind, Except.bind]
    cases hl : l.items with
    | nil =>
      rw [hl] at v2
      rw [v2.eq_nil]
      exact ⟨_, _, rfl, List.Perm.refl _⟩
    | cons n ns =>
      refine ⟨_, _, rfl, ?_⟩
      rw [Radix.dropped, if_pos hc, ← hl]
      exact (v2.map some).symm

example : ∃ s d s', sets (owning id) create aHistory = .ok (s, d) ∧
    clear (owning id) s = .ok (s', [some 2, some 4, some 3]) :=
  ⟨_, _, _, rfl, rfl⟩

/-- C152 is false: whatever is done with a dictionary that had a key after it was cleared uses freed
memory. -/
theorem C152_false (c : Calls V) {s : Store V} {k : Bytes} {w : V} (hg : get s k = .ok (some w)) :
    ∃ s' d, clear c s = .ok (s', d) ∧ (∀ k, get s' k = .error .useAfterFree) ∧
      (∀ k v, set c s' k v = .error .useAfterFree) ∧ (∀ k, unset c s' k = .error .useAfterFree) ∧
      keys s' = .error .useAfterFree ∧ values s' = .error .useAfterFree ∧
      clear c s' = .error .useAfterFree ∧ destroy c s' = .error .useAfterFree := by
  cases s with
  | dangling => cases hg
  | live l =>
    simp only [clear, Store.list, bind, Except.bind]
    cases hl : l.items with
    | nil =>
      simp only [BRadix.get, Store.list, bind, Except.bind, hl] at hg
      injection hg with hg
      cases k with
      | nil => simp [RTree.getLoop] at hg
      | cons b bs => simp [RTree.getLoop, RTree.findAt] at hg
    | cons n ns =>
      exact ⟨_, _, rfl, fun _ => rfl, fun _ _ => rfl, fun _ => rfl, rfl, rfl, rfl, rfl⟩

example : ∃ s d, sets (owning id) create aHistory = .ok (s, d) ∧ get s [1, 2] = .ok (some 4) :=
  ⟨_, _, rfl, rfl⟩

end Comps.Props.BRadix

section
open Comps.Props.BRadix
#print axioms C147_map
#print axioms C148_owned
#print axioms C149_partial
#print axioms C149_false
#print axioms C149_false_range
#print axioms C149_false_empty
#print axioms C149_false_destructor
#print axioms C150_partial
#print axioms C150_single_partial
#print axioms C150_false
#print axioms C150_false_kept
#print axioms C150_false_fault
#print axioms C151_partial
#print axioms C151_false
#print axioms C152_partial
#print axioms C152_false
end
