import Verif.Lemmas.MRadixList

/-!
# Properties of the plain multi-dictionary (C153 - C157)

`COMPS_MDict` / `COMPS_MRTree`: a key has a list of pointers.
-/

namespace Comps.Props.MRadix
open Comps Comps.MRadix
open Comps.Radix (Calls Store dropList)
open Comps.Spec hiding Wrote
open Comps.Spec.PlainM
open Comps.Spec.Plain (made)
variable {V : Type}

/-- Values that are stored as they are, copied with `f`, and destroyed. -/
def owning (f : V → V) : Calls V := ⟨none, some f, true⟩

/-- The writes of the examples: one key twice, and two keys that leave each other at a key. -/
def aHistory : List (Bytes × Option Nat) :=
  [(b!"a", some 1), (b!"ab", some 2), (b!"ac", some 3), (b!"ab", some 4)]

theorem aHistory_proper : Proper (owning id) aHistory := by
  intro e he
  simp only [aHistory, List.mem_cons, List.not_mem_nil, or_false] at he
  rcases he with rfl | rfl | rfl | rfl <;> exact ⟨by simp, by simp [made, owning]⟩

theorem aHistory_nested : Nested aHistory := by
  intro pre w post e w' hw' p a b as bs e1 e2 hab hp
  have hw : w ∈ aHistory := by rw [e]; simp
  have hw'' : w' ∈ aHistory := by rw [e]; simp [hw']
  have hpa : p = b!"a" := by
    simp only [aHistory, List.mem_cons, List.not_mem_nil, or_false] at hw hw''
    cases p with
    | nil => exact (hp rfl).elim
    | cons x xs =>
      cases xs with
      | nil => rcases hw with rfl | rfl | rfl | rfl <;> simp_all
      | cons y ys => rcases hw with rfl | rfl | rfl | rfl <;> rcases hw'' with rfl | rfl | rfl | rfl <;> simp_all
  subst hpa
  cases pre with
  | nil => simp at hw'
  | cons x xs =>
    simp only [aHistory, List.cons_append, List.cons.injEq] at e
    exact ⟨x, by simp, by rw [← e.1]⟩

/-! ## C153 what is read -/

/-- **C153, partial.**  If every write that leaves an earlier key does so at a key, or at the first byte,
then every key reads as the values written under it, first write first, and NULL if there are none.
Missing: other histories (`C153_false`), and NULL values and the empty key
(`C153_false_null`, `C153_false_empty`). -/
theorem C153_nested_partial (c : Calls V) (ws : List (Bytes × Option V)) (hp : Proper c ws)
    (hn : Nested ws) :
    ∃ s, sets c create ws = .ok s ∧ ∀ k, get s k = .ok
      (if written ws k = [] then none else some ((written ws k).map fun v => .one (made c v))) := by
  obtain ⟨l, h1, h2, h3, -⟩ := sets_create c ws hp (nested_map _ hn)
  refine ⟨.live l, h1, fun k => ?_⟩
  rw [get_live h2.wf, listLk_plk, h3, content, show stored c ws = ws.map fun e => (e.1, made c e.2) from rfl,
    written_map]
  by_cases hz : written ws k = []
  · simp [hz]
  · simp [hz, Function.comp_def]

/-- What is read under some keys. -/
def shown (r : Res (MStore Nat)) (ks : List Bytes) : Option (List (Option (List (Elem Nat)))) :=
  match r with
  | .ok s => some (ks.map (reads s))
  | .error _ => none

example : (Proper (owning id) aHistory ∧ Nested aHistory) ∧
    ∃ s, sets (owning id) create aHistory = .ok s ∧
      get s b!"ab" = .ok (some [.one (some 2), .one (some 4)]) ∧ get s b!"b" = .ok none :=
  ⟨⟨aHistory_proper, aHistory_nested⟩, _, rfl, rfl, rfl⟩

/-- **C153, partial.**  What a write does to any dictionary made by writes: exactly `Wrote`; a write under
the empty key does nothing.
Missing: that it only adds a value under its key. -/
theorem C153_wrote_partial (c : Calls V) (ws : List (Bytes × Option V)) :
    ∃ s, sets c create ws = .ok s ∧ (∀ k, get s k = .ok ((seen s k).bind fun d => d)) ∧
      (∀ v, set c s [] v = .ok s) ∧
      ∀ k v, k ≠ [] → ∃ s', set c s k v = .ok s' ∧ Wrote (seen s) k (made c v) (seen s') := by
  obtain ⟨l, h1, h2⟩ := sets_good c ws HSList.empty good_empty
  refine ⟨.live l, h1, get_seen h2.wf, fun v => rfl, fun k v hk => ?_⟩
  obtain ⟨l', j1, j2, j3⟩ := set_live c k hk v l h2
  refine ⟨_, j1, ?_⟩
  rwa [show seen (.live l) = plk l.items from funext (seen_live h2.wf),
    show seen (.live l') = plk l'.items from funext (seen_live j2.wf)]

/-- C153 is false: after "ab" := 1 and "ac" := 2 the list of "ab" has a list as its element; the value
written under "a" after that is lost, and so is every other. -/
theorem C153_false : ∃ s : MStore Nat,
    sets (owning id) create [(b!"ab", some 1), (b!"ac", some 2), (b!"a", some 3)] = .ok s ∧
    get s b!"ab" = .ok (some [.nested [.one (some 1)]]) ∧ get s b!"a" = .ok none :=
  ⟨_, rfl, rfl, rfl⟩

/-- C153 is false: a NULL written first is not in the list, a NULL written later is. -/
theorem C153_false_null : ∃ s : MStore Nat,
    sets (owning id) create [(b!"a", none), (b!"b", some 1), (b!"b", none)] = .ok s ∧
    get s b!"a" = .ok (some []) ∧ get s b!"b" = .ok (some [.one (some 1), .one none]) :=
  ⟨_, rfl, rfl, rfl⟩

/-- C153 is false: a value written under the empty key is not held. -/
theorem C153_false_empty (c : Calls V) (v : Option V) : ∃ s,
    set c create [] v = .ok s ∧ get s [] = .ok none ∧ values s = .ok [] :=
  ⟨_, rfl, rfl, rfl⟩

/-- C153 is false for writes with a length: the value written under the first two bytes of "abc" is found
under "abc"; and under the first byte of "abc" after "ab" it reads past the end of a key. -/
theorem C153_false_length :
    (∃ s : MStore Nat, setN (owning id) create b!"abc" 2 (some 1) = .ok s ∧
      get s b!"ab" = .ok none ∧ get s b!"abc" = .ok (some [.one (some 1)])) ∧
    ∃ s : MStore Nat, sets (owning id) create [(b!"ab", some 1)] = .ok s ∧
      setN (owning id) s b!"abc" 1 (some 2) = .error .outOfBounds :=
  ⟨⟨_, rfl, rfl, rfl⟩, _, rfl, rfl⟩

/-! ## C154 listings -/

/-- **C154, partial.**  In the dictionaries of `C153_nested_partial` the listings give every key that was
written once, and every value that was written.
Missing: other histories (`C154_false`). -/
theorem C154_listed_partial (c : Calls V) (ws : List (Bytes × Option V)) (hp : Proper c ws)
    (hn : Nested ws) :
    ∃ s ks vs, sets c create ws = .ok s ∧ keys s = .ok ks ∧ values s = .ok vs ∧ ks.Nodup ∧
      (∀ k, k ∈ ks ↔ ∃ e ∈ ws, e.1 = k) ∧ vs.Perm (ws.map fun e => .one (made c e.2)) := by
  obtain ⟨l, h1, h2, h3, h4⟩ := sets_create c ws hp (nested_map _ hn)
  obtain ⟨ks, k1, k2, k3⟩ := keys_calm h2
  obtain ⟨vs, v1, v2⟩ := values_calm h2
  refine ⟨.live l, ks, vs, h1, k1, v1, k2, fun k => ?_, ?_⟩
  · rw [k3]
    have h3 := h3 k
    have hw : written (stored c ws) k = (written ws k).map (made c) := written_map _ ws k
    rw [plk_full h2.wf h2.full, content, hw] at h3
    rw [← written_ne]
    constructor
    · rintro ⟨d, hd, -⟩ hz
      simp [hd, hz] at h3
    · intro hz
      rw [if_neg (by simpa using hz)] at h3
      obtain ⟨d, hd, e⟩ := Option.map_eq_some_iff.1 h3
      injection e with e
      exact ⟨d, hd, by rw [e]; simpa using hz⟩
  · -- the values do not depend on the destructor
    refine v2.trans ?_
    have hd : Proper { c with dtor := true } ws := hp
    obtain ⟨l', h1', h2', -, h4'⟩ := sets_create { c with dtor := true } ws hd (nested_map _ hn)
    have hset : ∀ (ws : List (Bytes × Option V)) (s : MStore V),
        sets { c with dtor := true } s ws = sets c s ws := by
      intro ws
      induction ws with
      | nil => intro s; rfl
      | cons e es ih =>
        intro s
        simp only [sets]
        have : set { c with dtor := true } s e.1 e.2 = set c s e.1 e.2 := rfl
        rw [this]
        cases set c s e.1 e.2 with
        | error f => rfl
        | ok s' => exact ih s'
    rw [hset, h1] at h1'
    injection h1' with h1'; injection h1' with h1'
    subst h1'
    obtain ⟨l'', e, -, hperm⟩ := calm_inv _ h4'
    injection e with e; subst e
    have := (hperm rfl).map (MVal.one (V := Option V))
    simp only [List.nil_append] at this
    rw [plain_ptr h2.plain] at this
    refine this.trans (List.Perm.of_eq ?_)
    rw [List.map_map]
    rfl

example : ∃ s, sets (owning id) create aHistory = .ok s ∧ keys s = .ok [b!"a", b!"ab", b!"ac"] ∧
    values s = .ok [.one (some 1), .one (some 2), .one (some 4), .one (some 3)] :=
  ⟨_, rfl, rfl, rfl⟩

/-- **C154, partial.**  When the listings fault: the keys and the values of a dictionary made by writes
can be listed unless there is a key with a NULL list.  If there is one, listing them, copying the
dictionary and adding it to another dereference NULL.
Missing: that there is no such key. -/
theorem C154_fault_partial (c : Calls V) (ws : List (Bytes × Option V)) {s : MStore V}
    (h : sets c create ws = .ok s) :
    ((∃ ks, keys s = .ok ks) ↔ ∀ p, seen s p ≠ some none) ∧
    ((∃ vs, values s = .ok vs) ↔ ∀ p, seen s p ≠ some none) ∧
    ((∃ p, seen s p = some none) → keys s = .error .nullDeref ∧ values s = .error .nullDeref ∧
      clone c s = .error .nullDeref ∧ ∀ s1, unite c s1 s = .error .nullDeref) := by
  obtain ⟨l, h1, h2⟩ := sets_good c ws HSList.empty good_empty
  rw [show sets c (.live HSList.empty) ws = .ok s from h] at h1
  injection h1 with h1
  subst h1
  obtain ⟨f1, f2⟩ := lists_fault h2.wf
  have hs : ∀ p, seen (.live l) p = plk l.items p := seen_live h2.wf
  simp only [hs]
  cases hl : lists l with
  | ok u =>
    have hno : ¬ ∃ p, plk l.items p = some none := by
      rw [← f1, hl]; rintro ⟨f, hf⟩; cases hf
    have hno' : ∀ p, plk l.items p ≠ some none := fun p hp => hno ⟨p, hp⟩
    refine ⟨⟨fun _ => hno', fun _ => ?_⟩, ⟨fun _ => hno', fun _ => ?_⟩, fun hx => (hno hx).elim⟩
    · simp only [keys, Store.list, bind, Except.bind, hl]; exact ⟨_, rfl⟩
    · simp only [values, Store.list, bind, Except.bind, hl]; exact ⟨_, rfl⟩
  | error f =>
    obtain rfl := f2 f hl
    have hyes := f1.1 ⟨_, hl⟩
    have k1 : keys (.live l) = .error .nullDeref := by simp only [keys, Store.list, bind, Except.bind, hl]
    have k2 : values (.live l) = .error .nullDeref := by simp only [values, Store.list, bind, Except.bind, hl]
    refine ⟨?_, ?_, fun _ => ⟨k1, k2, ?_, fun s1 => ?_⟩⟩
    · rw [k1]
      exact ⟨fun h => (nomatch h), fun h => (hyes.elim fun p hp => (h p hp).elim)⟩
    · rw [k2]
      exact ⟨fun h => (nomatch h), fun h => (hyes.elim fun p hp => (h p hp).elim)⟩
    · simp only [clone, Store.list, bind, Except.bind, hl]
    · simp only [unite, Store.list, bind, Except.bind, hl]

/-- C154 is false: after "ab" and "ac" the keys cannot be listed. -/
theorem C154_false : ∃ s : MStore Nat,
    sets (owning id) create [(b!"ab", some 1), (b!"ac", some 2)] = .ok s ∧ seen s b!"a" = some none ∧
    keys s = .error .nullDeref ∧ values s = .error .nullDeref ∧ clone (owning id) s = .error .nullDeref :=
  ⟨_, rfl, rfl, rfl, rfl, rfl⟩

/-! ## C155 each value is destroyed once -/

/-- The histories of `C153_nested_partial` are calm: what is given is what is written. -/
theorem C155_calm_partial (c : Calls V) (ws : List (Bytes × Option V)) (hp : Proper c ws) (hn : Nested ws) :
    ∃ s, sets c create ws = .ok s ∧ Calm c s (ws.map fun e => made c e.2) [] := by
  obtain ⟨l, h1, -, -, h4⟩ := sets_create c ws hp (nested_map _ hn)
  exact ⟨_, h1, h4⟩

/-- **C155, partial.**  In a dictionary made by writes that leave no key at a place that is not a key, and
by removals, every pointer given has been destroyed once or is listed once, and all have been destroyed
once when the dictionary has been destroyed.  So if the pointers differ, none is destroyed twice and none
that is listed has been destroyed.
Missing: other dictionaries (`C155_false`). -/
theorem C155_owned_partial (c : Calls V) (hc : c.dtor = true) {s : MStore V} {g d : List (Option V)}
    (h : Calm c s g d) :
    ∃ vs d', values s = .ok vs ∧ destroy c s = .ok d' ∧ vs.Perm (d'.map .one) ∧ (d ++ d').Perm g ∧
      (g.Nodup → (d ++ d').Nodup ∧ ∀ p, .one p ∈ vs → p ∉ d) := by
  obtain ⟨l, rfl, hi, hp⟩ := calm_inv c h
  obtain ⟨vs, v1, v2⟩ := values_calm hi
  have hd : destroy c (.live l) = .ok ((dropList l.items).flatten.map ptr) := by
    simp only [destroy, Store.list, bind, Except.bind]
    rw [dropVals_plain c hi.plain, if_pos hc]
  have hv : vs.Perm (((dropList l.items).flatten.map ptr).map .one) := by rw [plain_ptr hi.plain]; exact v2
  refine ⟨vs, _, v1, hd, hv, hp hc, fun hg => ?_⟩
  have hn := (hp hc).nodup_iff.2 hg
  refine ⟨hn, fun p hm hin => ?_⟩
  obtain ⟨q, hq, e⟩ := List.mem_map.1 (hv.mem_iff.1 hm)
  injection e with e; subst e
  exact (List.nodup_append.1 hn).2.2 q hin q hq rfl

example : ∃ s s' d, Calm (owning id) s [some 1, some 2, some 3, some 4] [] ∧
    unset (owning id) s b!"ab" = .ok (s', d) ∧ d = [some 2, some 4] ∧
    Calm (owning id) s' [some 1, some 2, some 3, some 4] ([] ++ d) ∧
    destroy (owning id) s' = .ok [some 1, some 3] := by
  obtain ⟨s, h1, h2⟩ := C155_calm_partial (owning id) aHistory aHistory_proper aHistory_nested
  have h1' : sets (owning id) create aHistory = .ok _ := rfl
  rw [h1] at h1'
  injection h1' with h1'
  subst h1'
  exact ⟨_, _, _, h2, rfl, rfl, .unset b!"ab" h2 rfl, rfl⟩

/-- C155 is false: after "ab" and "ac" the destructor is given a list of the dictionary. -/
theorem C155_false : ∃ s : MStore Nat,
    sets (owning id) create [(b!"ab", some 1), (b!"ac", some 2)] = .ok s ∧
    destroy (owning id) s = .error .typeConfusion ∧ unset (owning id) s b!"ab" = .error .typeConfusion ∧
    clear (owning id) s = .error .typeConfusion :=
  ⟨_, rfl, rfl, rfl, rfl⟩

/-! ## C156 removals -/

/-- **C156, partial.**  In a dictionary made by writes that leave no key at a place that is not a key, and
by removals: a removal uses freed memory exactly if the key is the only one that extends another.
Otherwise it destroys the values of the key, and every other key keeps its list; the key is gone if no
other key extends it, and has an empty list if one does.
Missing: that there is no fault, and that the key is gone (`C156_false`). -/
theorem C156_partial (c : Calls V) (hc : c.dtor = true) {s : MStore V} {g d : List (Option V)}
    (h : Calm c s g d) (k : Bytes) :
    (∀ f, unset c s k = .error f → f = .useAfterFree) ∧
    ((∃ f, unset c s k = .error f) ↔ OnlyChild (reads s) k) ∧
    ∀ s' d', unset c s k = .ok (s', d') →
      Removed (reads s) k (reads s') ∧ d'.map .one = (reads s k).getD [] := by
  obtain ⟨l, rfl, hi, -⟩ := calm_inv c h
  obtain ⟨u1, u2, u3⟩ := unset_calm c k l hi
  have hr : reads (.live l) = RTree.listLk l.items := funext (reads_live hi.wf)
  rw [hr]
  refine ⟨u1, u2, fun s' d' hu => ?_⟩
  obtain ⟨l', rfl, hi', hrem, hd, -⟩ := u3 s' d' hu
  rw [show reads (.live l') = RTree.listLk l'.items from funext (reads_live hi'.wf)]
  refine ⟨hrem, ?_⟩
  rw [hd, if_pos hc]
  refine plain_ptr ?_
  cases hlk : RTree.listLk l.items k with
  | none => intro e he; simp at he
  | some d => exact plain_at hi hlk

example : ∃ s s' d, sets (owning id) create aHistory = .ok s ∧
    unset (owning id) s b!"a" = .ok (s', d) ∧ d = [some 1] ∧
    reads s' b!"a" = some [] ∧ reads s' b!"ab" = some [.one (some 2), .one (some 4)] :=
  ⟨_, _, _, rfl, rfl, rfl, rfl, rfl⟩

/-- C156 is false: removing "ab" after "a" and "ab" uses freed memory; removing "a" leaves an empty list. -/
theorem C156_false : ∃ s : MStore Nat,
    sets (owning id) create [(b!"a", some 1), (b!"ab", some 2)] = .ok s ∧
    unset (owning id) s b!"ab" = .error .useAfterFree ∧
    ∃ s' d, unset (owning id) s b!"a" = .ok (s', d) ∧ get s' b!"a" = .ok (some []) :=
  ⟨_, rfl, rfl, _, _, rfl, rfl⟩

/-- **C156, partial.**  Clearing such a dictionary destroys what destroying it would, and one without keys
can be used afterwards.
Missing: use after clearing any other (`C156_clear_false`). -/
theorem C156_clear_partial (c : Calls V) {s : MStore V} {g d : List (Option V)} (h : Calm c s g d) :
    (∃ s' d', clear c s = .ok (s', d') ∧ destroy c s = .ok d') ∧
    clear c (create : MStore V) = .ok (create, []) := by
  refine ⟨?_, rfl⟩
  obtain ⟨l, rfl, hi, -⟩ := calm_inv c h
  have hd := dropVals_plain c hi.plain
  simp only [clear, destroy, Store.list, bind, Except.bind]
  cases hl : l.items with
  | nil =>
    refine ⟨_, _, rfl, ?_⟩
    simp [dropVals]
    intro _
    rfl
  | cons n ns =>
    rw [hl] at hd
    exact ⟨_, _, by simp only [hd]; rfl, hd⟩

example : ∃ s s' d, sets (owning id) create aHistory = .ok s ∧ clear (owning id) s = .ok (s', d) ∧
    d = [some 1, some 2, some 4, some 3] :=
  ⟨_, _, _, rfl, rfl, rfl⟩

/-- C156 is false: whatever is done with a dictionary that had a key after it was cleared uses freed
memory. -/
theorem C156_clear_false (c : Calls V) {s s' : MStore V} {d : List (Option V)} {k : Bytes} {w : List (Elem V)}
    (hg : get s k = .ok (some w)) (hcl : clear c s = .ok (s', d)) :
    (∀ k, get s' k = .error .useAfterFree) ∧ (∀ k v, set c s' k v = .error .useAfterFree) ∧
      (∀ k, unset c s' k = .error .useAfterFree) ∧ keys s' = .error .useAfterFree ∧
      values s' = .error .useAfterFree ∧ clear c s' = .error .useAfterFree ∧
      destroy c s' = .error .useAfterFree := by
  cases s with
  | dangling => cases hg
  | live l =>
    simp only [clear, Store.list, bind, Except.bind] at hcl
    cases hl : l.items with
    | nil =>
      simp only [MRadix.get, Store.list, bind, Except.bind, hl] at hg
      injection hg with hg
      cases k with
      | nil => simp [RTree.getLoop] at hg
      | cons b bs => simp [RTree.getLoop, RTree.findAt] at hg
    | cons n ns =>
      simp only [hl] at hcl
      cases hd : dropVals c (dropList (n :: ns)).flatten with
      | error f => rw [hd] at hcl; cases hcl
      | ok d' =>
        rw [hd] at hcl
        injection hcl with hcl; injection hcl with e1 e2
        subst e1
        exact ⟨fun _ => rfl, fun _ _ => rfl, fun _ => rfl, rfl, rfl, rfl, rfl⟩

/-! ## C157 copies and unions -/

/-- **C157, partial.**  A copy of such a dictionary has the same keys, each with the copies of its values,
and it owns the copies: what destroying it destroys is the copies of what destroying the original
destroys.
Missing: other dictionaries (`C154_false`). -/
theorem C157_clone_partial (c : Calls V) (f : V → V) (hf : c.cloner = some f) {s : MStore V}
    {g d : List (Option V)} (h : Calm c s g d) :
    ∃ t, clone c s = .ok t ∧
      (∀ k, reads s k = none ∧ reads t k = none ∨ ∃ ps : List V,
        reads s k = some (ps.map fun p => .one (some p)) ∧
        reads t k = some (ps.map fun p => .one (some (f p)))) ∧
      ∃ d1 d2, destroy c s = .ok d1 ∧ destroy c t = .ok d2 ∧ d2 = d1.map (Option.map f) := by
  obtain ⟨l, rfl, hi, -⟩ := calm_inv c h
  obtain ⟨l', j1, j2, j3, j4⟩ := clone_calm c f hf hi
  have hm : ∀ ps : List V, (ps.map fun p => (.one (some p) : Elem V)).map (cloned c) =
      ps.map fun p => .one (some (f p)) := by
    intro ps
    rw [List.map_map]
    exact List.map_congr_left fun p _ => cloned_one c f hf p
  refine ⟨_, j1, fun k => ?_, ?_⟩
  · rw [reads_live hi.wf, reads_live j2.wf, j3]
    cases hlk : RTree.listLk l.items k with
    | none => exact .inl ⟨rfl, rfl⟩
    | some d =>
      obtain ⟨ps, rfl⟩ := plain_some (plain_at hi hlk)
      exact .inr ⟨ps, rfl, by rw [Option.map_some, hm]⟩
  · refine ⟨_, _, dropVals_plain c hi.plain, dropVals_plain c j2.plain, ?_⟩
    cases c.dtor with
    | false => rfl
    | true =>
      simp only [if_true]
      rw [j4]
      obtain ⟨ps, e⟩ := plain_some hi.plain
      rw [e, hm, List.map_map, List.map_map, List.map_map]
      rfl

example : ∃ s t, sets (owning (· + 10)) create aHistory = .ok s ∧ clone (owning (· + 10)) s = .ok t ∧
    shown (.ok t) [b!"a", b!"ab", b!"ac"] = some [some [.one (some 11)],
      some [.one (some 12), .one (some 14)], some [.one (some 13)]] :=
  ⟨_, _, rfl, rfl, rfl⟩

/-- **C157, partial.**  After the second of two dictionaries was added to the first, every key has the
values it had in the first and then those it had in the second, if the writes of both one after the other
leave no key at a place that is not a key.
Missing: other dictionaries (`C157_false`); that the values of the second are not shared
(`C157_false_shared`). -/
theorem C157_union_partial (c1 c2 : Calls V) (ws1 ws2 : List (Bytes × Option V)) (hp1 : Proper c1 ws1)
    (hp2 : Proper c2 ws2) (hm : ∀ e ∈ ws2, made c1 (made c2 e.2) ≠ none) (hn2 : Nested ws2)
    (hn : Nested (ws1 ++ ws2)) :
    ∃ s1 s2 s, sets c1 create ws1 = .ok s1 ∧ sets c2 create ws2 = .ok s2 ∧ unite c1 s1 s2 = .ok s ∧
      (∃ g', Calm c1 s ((ws1.map fun e => made c1 e.2) ++ g') []) ∧
      ∀ k, get s k = .ok (if written ws1 k = [] ∧ written ws2 k = [] then none
        else some ((written ws1 k).map (fun v => .one (made c1 v)) ++
          (written ws2 k).map fun v => .one (made c1 (made c2 v)))) := by
  have hn1 : Nested ws1 := by
    intro pre w post e
    exact hn pre w (post ++ ws2) (by rw [e]; simp)
  obtain ⟨l1, a1, a2, a3, a4⟩ := sets_create c1 ws1 hp1 (nested_map _ hn1)
  obtain ⟨l2, b1, b2, b3, -⟩ := sets_create c2 ws2 hp2 (nested_map _ hn2)
  have hnn : Nested (stored c1 ws1 ++ stored c2 ws2) := by
    intro pre w post e w' hw' p a b as bs e1 e2 hab hp
    have hN := nested_map (fun _ : Option V => ()) hn
    have e' : (ws1 ++ ws2).map (fun e => (e.1, ())) = pre.map (fun e => (e.1, ())) ++ (w.1, ()) ::
        post.map fun e => (e.1, ()) := by
      have := congrArg (List.map fun e : Bytes × Option V => (e.1, ())) e
      simpa [stored, Function.comp_def] using this
    obtain ⟨u, hu, eu⟩ := hN _ _ _ e' (w'.1, ()) (List.mem_map.2 ⟨w', hw', rfl⟩) p a b as bs e1 e2 hab hp
    obtain ⟨x, hx, rfl⟩ := List.mem_map.1 hu
    exact ⟨x, hx, eu⟩
  obtain ⟨l', j1, j2, j3, g', j4⟩ := unite_calm c1 a2 b2 a3 b3 hnn (by
    intro e he
    obtain ⟨x, hx, rfl⟩ := List.mem_map.1 he
    exact ⟨(hp2 x hx).1, hm x hx⟩) a4
  refine ⟨_, _, _, a1, b1, j1, ⟨g', j4⟩, fun k => ?_⟩
  rw [get_live j2.wf, listLk_plk, j3, show written (stored c1 ws1) k = (written ws1 k).map (made c1) from
    written_map _ ws1 k, show written (stored c2 ws2) k = (written ws2 k).map (made c2) from
    written_map _ ws2 k]
  by_cases h1 : written ws1 k = [] <;> by_cases h2 : written ws2 k = [] <;>
    simp [h1, h2, Function.comp_def]

/-- The writes of the example: no key leaves another after the first byte. -/
theorem union_nested : Nested ([(b!"a", some 1), (b!"ab", some 2)] ++ [(b!"ab", some 4), (b!"b", some (3 : Nat))]) := by
  intro pre w post e w' hw' p a b as bs e1 e2 hab hp
  have hw : w ∈ pre ++ w :: post := by simp
  have hw'' : w' ∈ pre ++ w :: post := by simp [hw']
  rw [← e] at hw hw''
  simp only [List.cons_append, List.nil_append, List.mem_cons, List.not_mem_nil, or_false] at hw hw''
  cases p with
  | nil => exact (hp rfl).elim
  | cons x xs =>
    exfalso
    rcases hw with rfl | rfl | rfl | rfl <;> rcases hw'' with rfl | rfl | rfl | rfl <;>
      cases xs <;> simp_all

example : ∃ s1 s2 s, sets (owning id) create [(b!"a", some 1), (b!"ab", some 2)] = .ok s1 ∧
    sets (owning id) create [(b!"ac", some 3), (b!"ab", some (4 : Nat))] = .ok s2 ∧
    seen s2 b!"a" = some none ∧ unite (owning id) s1 s2 = .error .nullDeref ∧
    sets (owning id) create [(b!"ab", some 4), (b!"b", some (3 : Nat))] = .ok s ∧
    shown (unite (owning id) s1 s) [b!"a", b!"ab", b!"b"] = some [some [.one (some 1)],
      some [.one (some 2), .one (some 4)], some [.one (some 3)]] :=
  ⟨_, _, _, rfl, rfl, rfl, rfl, rfl, rfl⟩

/-- C157 is false: adding a dictionary with "ac" to one with "ab" puts the list of "ab" into a list. -/
theorem C157_false : ∃ s1 s2 s : MStore Nat, sets (owning id) create [(b!"ab", some 1)] = .ok s1 ∧
    sets (owning id) create [(b!"ac", some 2)] = .ok s2 ∧ unite (owning id) s1 s2 = .ok s ∧
    get s b!"ab" = .ok (some [.nested [.one (some 1)]]) :=
  ⟨_, _, _, rfl, rfl, rfl, rfl⟩

/-- C157 is false: if values are stored as they are, both dictionaries destroy those of the second. -/
theorem C157_false_shared : ∃ s1 s2 s : MStore Nat, sets (owning id) create [(b!"a", some 1)] = .ok s1 ∧
    sets (owning id) create [(b!"b", some 2)] = .ok s2 ∧ unite (owning id) s1 s2 = .ok s ∧
    destroy (owning id) s = .ok [some 1, some 2] ∧ destroy (owning id) s2 = .ok [some 2] :=
  ⟨_, _, _, rfl, rfl, rfl, rfl, rfl⟩

end Comps.Props.MRadix

section
open Comps.Props.MRadix
#print axioms C153_nested_partial
#print axioms C153_wrote_partial
#print axioms C153_false
#print axioms C153_false_null
#print axioms C153_false_empty
#print axioms C153_false_length
#print axioms C154_listed_partial
#print axioms C154_fault_partial
#print axioms C154_false
#print axioms C155_calm_partial
#print axioms C155_owned_partial
#print axioms C155_false
#print axioms C156_partial
#print axioms C156_false
#print axioms C156_clear_partial
#print axioms C156_clear_false
#print axioms C157_clone_partial
#print axioms C157_union_partial
#print axioms C157_false
#print axioms C157_false_shared
end
