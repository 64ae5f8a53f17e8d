import Verif.Lemmas.MRTreeExact

/-!
# Properties of the multi-dictionary (C10, C11, C50-C53)
-/

namespace Comps.Props
open Comps Comps.Spec Comps.MTree
variable {V : Type}

/-- A history of `comps_objmdict_set` calls on a new multi-dictionary. -/
def mrun (ws : List (Bytes × V)) : MTree V := ws.foldl (fun t w => MTree.set t w.1 w.2) MTree.create

theorem mrun_reach (ws : List (Bytes × V)) : MReach (mrun ws) := by
  have : ∀ (t : MTree V), MReach t → MReach (ws.foldl (fun t w => MTree.set t w.1 w.2) t) := by
    induction ws with
    | nil => exact fun t h => h
    | cons w ws ih => exact fun t h => ih _ (.set _ _ h)
  exact this _ .create

/-! ## C10 accumulation -/

/-- C10 is false: after "ab" := 1, "ac" := 2 the list under "ab" holds one element that is itself a
list, not the object 1; and the key "a", never written, is found (with an empty list). -/
theorem C10_false : ∃ (ws : List (Bytes × Nat)),
    MTree.get (mrun ws) [97, 98] = some [.nested [.one 1]] ∧ written ws [97, 98] = [1] ∧
    MTree.get (mrun ws) [97] = some [] ∧ ∀ w ∈ ws, w.1 ≠ [97] :=
  ⟨[([97, 98], 1), ([97, 99], 2)], rfl, by decide, rfl, by decide⟩

/-- C10, part that holds for every history: reading through wrapped lists, a key lists exactly the
objects written under it, in order.  Missing: the objects may sit inside wrapped lists. -/
theorem C10_objects_partial (ws : List (Bytes × V)) (k : Bytes) (hk : k ≠ []) :
    objects (MTree.get (mrun ws) k) = written ws k := by
  have : ∀ (t : MTree V), Ok t →
      objects (MTree.get (ws.foldl (fun t w => MTree.set t w.1 w.2) t) k) =
        objects (MTree.get t k) ++ written ws k := by
    induction ws with
    | nil => intro t _; simp [written]
    | cons w ws ih =>
      intro t h
      simp only [List.foldl_cons]
      rw [ih (MTree.set t w.1 w.2) (ok_setVal h w.1 _)]
      by_cases hw : w.1 = []
      · have hn : MTree.set t w.1 w.2 = t := by
          simp [MTree.set, setVal, hw, setLoop]
        have hk' : ¬ w.1 = k := by rw [hw]; exact fun e => hk e.symm
        simp [hn, written, hk']
      · simp only [objects, MTree.set]
        rw [setVal_flat h w.1 hw]
        by_cases e : k = w.1
        · subst e; simp [written]
        · have e' : ¬ w.1 = k := fun x => e x.symm
          simp [e, e', written]
  have := this _ ok_create
  rw [show mrun ws = ws.foldl (fun t w => MTree.set t w.1 w.2) MTree.create from rfl, this]
  rw [MTree.get_eq ok_create.wf]
  simp [objects, MTree.create, RTree.listLk, HSList.empty, flatL]

example : objects (MTree.get (mrun [([97, 98], 1), ([97, 99], 2), ([97, 98], 3)]) [97, 98]) = [1, 3] :=
  C10_objects_partial _ _ (by simp)

/-- C10, part that holds in every reachable state: one write adds one object at the end of its key's
list and changes no other key's objects.  Missing: as above. -/
theorem C10_write_partial {t : MTree V} (h : MReach t) (k : Bytes) (hk : k ≠ []) (v : V) (k' : Bytes) :
    objects (MTree.get (MTree.set t k v) k') =
      if k' = k then objects (MTree.get t k) ++ [v] else objects (MTree.get t k') := by
  simp only [objects, MTree.set]
  rw [setVal_flat (mreach_ok h) k hk]
  simp

example : objects (MTree.get (MTree.set (mrun [([97, 98], 1)]) [97] 2) [97, 98]) = [1] :=
  C10_write_partial (mrun_reach [([97, 98], 1)]) _ (by simp) _ _

/-- C10, what one write does in every reachable state, exactly, as lists of elements: the value is
added to its key's list; if the key leaves a present key at a place that is not a key, that place
becomes a key and the list of the first key from there on is wrapped; nothing else changes.
Missing: that nothing is wrapped. -/
theorem C10_wrote_partial {t : MTree V} (h : MReach t) (k : Bytes) (hk : k ≠ []) (v : V) :
    Wrote (MTree.get t) k [.one v] (MTree.get (MTree.set t k v)) :=
  setVal_wrote (mreach_ok h) k hk _

/-- "ab" then "ac": "a" becomes a key and the list of "ab" is wrapped. -/
example : MTree.get (MTree.set (mrun [([97, 98], 1)]) [97, 99] 2) [97, 98] = some [.nested [.one 1]] :=
  (C10_wrote_partial (mrun_reach [([97, 98], 1)]) [97, 99] (by simp) 2).moved [97] [97, 98]
    ⟨by simp, rfl, 98, [], 99, [], by decide, rfl, rfl⟩
    ⟨⟨[98], rfl⟩, rfl, by
      intro q hp hq hs
      by_cases e : q = [97, 98]
      · exact e
      · have hw := (C10_wrote_partial (V := Nat) (t := MTree.create) MReach.create [97, 98] (by simp) 1).other q e
          (fun hsp => by
            obtain ⟨-, -, a, as, b, bs, -, -, hx⟩ := hsp
            simp [MTree.get_create] at hx)
          (fun p hsp => by
            obtain ⟨-, -, a, as, b, bs, -, -, hx⟩ := hsp
            simp [MTree.get_create] at hx)
        rw [show MTree.get (mrun [([97, 98], 1)]) q = MTree.get (MTree.create : MTree Nat) q from hw,
          MTree.get_create] at hs
        simp at hs⟩

/-- C10, exact on nested histories: if a write leaves an earlier key after a non-empty common part
only when that common part was written before, then a read returns exactly the written objects, as
plain elements, and NULL for keys never written.  Missing: other histories. -/
theorem C10_exact_partial (ws : List (Bytes × V)) (hne : ∀ w ∈ ws, w.1 ≠ []) (hn : Nested ws)
    (k : Bytes) :
    MTree.get (mrun ws) k =
      if written ws k = [] then none else some ((written ws k).map .one) := by
  have key : ∀ (post pre : List (Bytes × V)) (t : MTree V), ws = pre ++ post → Ok t →
      (∀ k, MTree.get t k =
        if written pre k = [] then none else some ((written pre k).map .one)) →
      ∀ k, MTree.get (post.foldl (fun t w => MTree.set t w.1 w.2) t) k =
        if written ws k = [] then none else some ((written ws k).map .one) := by
    intro post
    induction post with
    | nil => intro pre t e _ hg k; rw [e]; simpa using hg k
    | cons w post ih =>
      intro pre t e h hg
      simp only [List.foldl_cons]
      have hw : w.1 ≠ [] := hne w (by rw [e]; simp)
      have mem_of : ∀ q, (MTree.get t q).isSome = true → ∃ w' ∈ pre, w'.1 = q := by
        intro q hq
        rw [hg q] at hq
        by_cases hz : written pre q = []
        · simp [hz] at hq
        · obtain ⟨x, hx⟩ := List.exists_mem_of_ne_nil _ hz
          simp only [written, List.mem_filterMap] at hx
          obtain ⟨w', hw', hx⟩ := hx
          by_cases e' : w'.1 = q
          · exact ⟨w', hw', e'⟩
          · simp [e'] at hx
      have of_mem : ∀ q, (∃ w' ∈ pre, w'.1 = q) → (MTree.get t q).isSome = true := by
        rintro q ⟨w', hw', rfl⟩
        rw [hg]
        have hz : written pre w'.1 ≠ [] := by
          apply List.ne_nil_of_mem (a := w'.2)
          simp only [written, List.mem_filterMap]
          exact ⟨w', hw', by simp⟩
        simp [hz]
      have hns : NoSplit t.subnodes.items w.1 := by
        intro p a b as bs e1 hp hab hst
        rw [← MTree.get_eq h.wf] at hst ⊢
        obtain ⟨w', hw', e2⟩ := mem_of _ hst
        exact of_mem p (hn pre w post e w' hw' p b a bs as e1 e2 (Ne.symm hab) hp)
      refine ih (pre ++ [w]) _ (by simp [e]) (ok_setVal h w.1 _) fun q => ?_
      rw [MTree.get_eq (t := MTree.set t w.1 w.2) (ok_setVal h w.1 _).wf]
      rw [show (MTree.set t w.1 w.2).subnodes = setLoop [.one w.2] w.1.length w.1 t.subnodes from rfl,
        setLoop_lk _ _ _ _ h.wf h.tailed h.full hw (Nat.le_refl _) hns,
        ← MTree.get_eq h.wf, ← MTree.get_eq h.wf, hg, hg]
      have hwa : written (pre ++ [w]) q = written pre q ++ (if w.1 = q then [w.2] else []) := by
        simp only [written, List.filterMap_append, List.filterMap_cons, List.filterMap_nil]
        by_cases e' : w.1 = q <;> simp [e']
      rw [hwa]
      by_cases e' : q = w.1
      · subst e'
        by_cases hz : written pre w.1 = []
        · simp [hz]
        · simp [hz]
      · have e'' : ¬ w.1 = q := fun x => e' x.symm
        simp [e', e'']
  exact key ws [] MTree.create rfl ok_create (fun k => by
    rw [MTree.get_eq ok_create.wf]
    simp [MTree.create, RTree.listLk, HSList.empty, written]) k

/-- The history "a", "ab", "ac" is nested. -/
theorem exNested : Nested [([97], 1), ([97, 98], 2), ([97, 99], 3)] := by
  intro pre w post e w' hw' p a b as bs e1 e2 hab hp
  match pre, e with
  | [], _ => simp at hw'
  | [x], e =>
    simp only [List.cons_append, List.nil_append, List.cons.injEq] at e
    obtain ⟨rfl, rfl, rfl⟩ := e
    simp at hw'; subst hw'
    cases p with
    | nil => exact absurd rfl hp
    | cons c p => simp at e1 e2
  | [x, y], e =>
    simp only [List.cons_append, List.nil_append, List.cons.injEq] at e
    obtain ⟨rfl, rfl, rfl, rfl⟩ := e
    refine ⟨([97], 1), by simp, ?_⟩
    cases p with
    | nil => exact absurd rfl hp
    | cons c p =>
      cases p with
      | nil => simp at e1; simp [e1.1]
      | cons d p => simp at e1
  | [x, y, z], e => simp at e
  | x :: y :: z :: u :: pre, e => simp at e

example : MTree.get (mrun [([97], 1), ([97, 98], 2), ([97, 99], 3)]) [97, 98] = some [.one 2] := by
  rw [C10_exact_partial _ (by simp) exNested]; rfl

/-! ## C11 comparison -/

/-- C11 is false: for every comparison of lists that holds between a list and itself, dictionaries
with different objects under the same key compare equal. -/
theorem C11_false (vcmp : List (MVal Nat) → List (MVal Nat) → Bool) (hr : ∀ x, vcmp x x = true) :
    ∃ t1 t2, MReach t1 ∧ MReach t2 ∧ MTree.cmp vcmp t1 t2 = true ∧
      objects (MTree.get t1 [97]) ≠ objects (MTree.get t2 [97]) := by
  refine ⟨mrun [([97], 1)], mrun [([97], 2)], mrun_reach _, mrun_reach _, ?_, ?_⟩
  · rw [cmp_keys hr (mreach_ok (mrun_reach _)) (mreach_ok (mrun_reach _))]
    intro k
    rw [C10_exact_partial _ (by simp) ?_, C10_exact_partial _ (by simp) ?_]
    · by_cases h : [97] = k <;> simp [written, h]
    all_goals
      intro pre w post e w' hw'
      cases pre with
      | nil => simp at hw'
      | cons x xs => simp at e
  · rw [C10_objects_partial _ _ (by simp), C10_objects_partial _ _ (by simp)]
    decide

/-- C11, part that holds: two reachable multi-dictionaries compare equal exactly if they have the
same keys.  Missing: the values, which the comparison ignores. -/
theorem C11_keys_partial (vcmp : List (MVal V) → List (MVal V) → Bool) (hr : ∀ x, vcmp x x = true)
    {t1 t2 : MTree V} (h1 : MReach t1) (h2 : MReach t2) :
    MTree.cmp vcmp t1 t2 = true ↔
      ∀ k, (MTree.get t1 k).isSome = (MTree.get t2 k).isSome :=
  cmp_keys hr (mreach_ok h1) (mreach_ok h2)

example : MTree.cmp (fun _ _ => true) (mrun [([97], 1)]) (mrun [([98], 1)]) = false := by decide

/-! ## C50 removal -/

/-- C50 is false, witness 1: removing "ab" from {"a", "ab"} uses freed memory. -/
theorem C50_false_fault : ∃ t : MTree Nat, MReach t ∧
    MTree.unset t [97, 98] = .error .useAfterFree :=
  ⟨mrun [([97], 1), ([97, 98], 2)], mrun_reach _, rfl⟩

/-- C50 is false, witness 2: a removed key that is a prefix of another key is still found. -/
theorem C50_false_found : ∃ t t' : MTree Nat, MReach t ∧ MTree.unset t [97] = .ok t' ∧
    MTree.get t' [97] = some [] :=
  ⟨mrun [([97], 1), ([97, 98], 2)], _, mrun_reach _, rfl, rfl⟩

/-- C50, part that holds: whenever removal returns, the key lists no objects, every other key reads
as before, and the count goes down by the number of removed elements.
Missing: absence of faults, and that the key is not found at all. -/
theorem C50_removed_partial {t t' : MTree V} (h : MReach t) (k : Bytes)
    (hu : MTree.unset t k = .ok t') :
    objects (MTree.get t' k) = [] ∧ (∀ k', k' ≠ k → MTree.get t' k' = MTree.get t k') ∧
    t'.len = t.len - ((MTree.get t k).getD []).length := by
  obtain ⟨-, h2, h3, h4⟩ := unset_cases (mreach_ok h) k hu
  exact ⟨by simp [objects, h2, flatL], h3, h4⟩

example : ∃ t', MTree.unset (mrun [([97], 1), ([98], 2)]) [97] = .ok t' ∧
    MTree.get t' [98] = some [.one 2] := ⟨_, rfl, rfl⟩

/-- C50, when removal fails: it uses freed memory exactly if the key is present and is the only key
that extends some other key. -/
theorem C50_fault {t : MTree V} (h : MReach t) (k : Bytes) :
    ((∃ f, MTree.unset t k = .error f) ↔ OnlyChild (MTree.get t) k) ∧
    ∀ f, MTree.unset t k = .error f → f = .useAfterFree :=
  ⟨(unset_fault (mreach_ok h) k).2.1, (unset_fault (mreach_ok h) k).1⟩

/-- In {"a", "ab"} the key "ab" is the only one that extends "a". -/
example : OnlyChild (MTree.get (mrun [([97], 1), ([97, 98], 2)])) [97, 98] :=
  (C50_fault (mrun_reach _) _).1.1 ⟨.useAfterFree, rfl⟩

/-- In {"a", "ab", "ac"} it is not. -/
example : ¬ OnlyChild (MTree.get (mrun [([97], 1), ([97, 98], 2), ([97, 99], 3)])) [97, 98] := by
  rw [← (C50_fault (mrun_reach _) _).1]
  rintro ⟨f, hf⟩
  have : MTree.unset (mrun [([97], 1), ([97, 98], 2), ([97, 99], 3)]) [97, 98] =
    .ok (mrun [([97], 1), ([97, 99], 3)]) := rfl
  rw [this] at hf
  cases hf

/-- C50, what removal leaves, exactly: the key is gone if no longer key is present, and keeps an empty
list if it was present and a longer key is; nothing else changes. -/
theorem C50_left {t t' : MTree V} (h : MReach t) (k : Bytes) (hu : MTree.unset t k = .ok t') :
    Removed (MTree.get t) k (MTree.get t') :=
  (unset_fault (mreach_ok h) k).2.2 t' hu

example : ∃ t', MTree.unset (mrun [([97], 1), ([97, 98], 2)]) [97] = .ok t' ∧
    MTree.get t' [97] = some [] :=
  ⟨_, rfl, (C50_left (mrun_reach [([97], 1), ([97, 98], 2)]) [97] rfl).inner [97, 98] rfl rfl
    ⟨[98], rfl⟩ (by simp)⟩

/-! ## C51 clearing -/

/-- C51 is false: after clearing any multi-dictionary that had an entry, the next read of any
non-empty key uses freed memory. -/
theorem C51_false (ws : List (Bytes × V)) (hw : ∃ w ∈ ws, w.1 ≠ []) (k : Bytes) (hk : k ≠ []) :
    MTree.getAfter (MTree.clear (mrun ws)) k = .error .useAfterFree := by
  obtain ⟨w, hw, hwk⟩ := hw
  have hne : (mrun ws).subnodes.items.isEmpty = false := by
    cases hi : (mrun ws).subnodes.items with
    | cons _ _ => rfl
    | nil =>
      have := C10_objects_partial ws w.1 hwk
      rw [MTree.get_eq (mreach_ok (mrun_reach ws)).wf, hi] at this
      simp only [objects, RTree.listLk, Option.getD_none, flatL] at this
      have hm : w.2 ∈ written ws w.1 := by
        simp only [written, List.mem_filterMap]
        exact ⟨w, hw, by simp⟩
      rw [← this] at hm
      simp at hm
  have hke : k.isEmpty = false := by cases k <;> simp_all
  simp [MTree.clear, hne, MTree.getAfter, hke]

example : MTree.getAfter (MTree.clear (mrun [([97], 1)])) [98] = .error .useAfterFree :=
  C51_false _ ⟨_, List.mem_singleton.2 rfl, by simp⟩ _ (by simp)

/-- C51, part that holds: clearing an empty multi-dictionary leaves it empty.
Missing: every other one. -/
theorem C51_empty_partial (k : Bytes) :
    MTree.getAfter (MTree.clear (MTree.create : MTree V)) k = .ok none := by
  simp only [MTree.clear, MTree.create, HSList.empty, List.isEmpty_nil, if_true, MTree.getAfter]
  rw [show MTree.get (⟨⟨[], false⟩, 0⟩ : MTree V) k = none from MTree.get_eq ok_create.wf k]

example : MTree.getAfter (MTree.clear (MTree.create : MTree Nat)) [97] = .ok none :=
  C51_empty_partial _

/-! ## C52 copying -/

/-- C52 is false: copying any multi-dictionary with an entry interprets a field address as an
object. -/
theorem C52_false (ws : List (Bytes × V)) (hw : ∃ w ∈ ws, w.1 ≠ []) :
    MTree.copy (mrun ws) = .error .typeConfusion := by
  have := C51_false ws hw [0] (by simp)
  simp only [MTree.clear] at this
  split at this
  · simp [MTree.getAfter] at this
  · rename_i h; simp [MTree.copy, h]

example : MTree.copy (mrun [([97], 1)]) = .error .typeConfusion :=
  C52_false _ ⟨_, List.mem_singleton.2 rfl, by simp⟩

/-- C52, part that holds: the copy of an empty multi-dictionary is empty. Missing: every other. -/
theorem C52_empty_partial : ∃ t', MTree.copy (MTree.create : MTree V) = .ok t' ∧
    ∀ k, MTree.get t' k = none :=
  ⟨_, rfl, fun k => MTree.get_eq ok_create.wf k⟩

example : ∃ t', MTree.copy (MTree.create : MTree Nat) = .ok t' ∧ MTree.get t' [97] = none := by
  obtain ⟨t', h, h'⟩ := C52_empty_partial (V := Nat)
  exact ⟨t', h, h' _⟩

/-! ## C53 union -/

/-- C53: after uniting, every key lists the objects of the first followed by those of the second. -/
theorem C53_unite {t1 t2 : MTree V} (h1 : MReach t1) (h2 : MReach t2) (k : Bytes) :
    objects (MTree.get (MTree.unite t1 t2) k) =
      objects (MTree.get t1 k) ++ objects (MTree.get t2 k) :=
  unite_flat (mreach_ok h1) (mreach_ok h2) k

example : objects (MTree.get (MTree.unite (mrun [([97], 1), ([97, 98], 2)])
    (mrun [([97, 98], 3), ([97, 99], 4)])) [97, 98]) = [2, 3] := by
  rw [C53_unite (mrun_reach _) (mrun_reach _), C10_objects_partial _ _ (by simp),
    C10_objects_partial _ _ (by simp)]
  decide

end Comps.Props

section
open Comps.Props
#print axioms C10_false
#print axioms C10_objects_partial
#print axioms C10_write_partial
#print axioms C10_wrote_partial
#print axioms C10_exact_partial
#print axioms C11_false
#print axioms C11_keys_partial
#print axioms C50_false_fault
#print axioms C50_false_found
#print axioms C50_removed_partial
#print axioms C50_fault
#print axioms C50_left
#print axioms C51_false
#print axioms C51_empty_partial
#print axioms C52_false
#print axioms C52_empty_partial
#print axioms C53_unite
end
