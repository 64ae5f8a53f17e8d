import Verif.Lemmas.HSHeap
import Verif.Lemmas.ObjHeap
import Verif.Spec.Seq

/-!
# Properties of lists (C12 - C15, C47 - C49)
-/

namespace Comps.Props
open Comps Comps.Spec

variable {α : Type}

/-- The pointer a caller gets by following `next` from `p` for `i` steps. -/
def nthCell (h : Heap α) : Option Nat → Nat → Option Nat
  | p, 0 => p
  | none, _ + 1 => none
  | some a, i + 1 => match h.cells a with
    | none => none
    | some c => nthCell h c.next i

theorem nthCell_spec {h : Heap α} {p : Option Nat} {as : List (Nat × α)} (hl : IsList h p as)
    (i : Nat) : nthCell h p i = as[i]?.map Prod.fst := by
  induction as generalizing p i with
  | nil =>
    have : p = none := hl.seg
    subst this
    cases i <;> simp [nthCell]
  | cons e es ih =>
    obtain ⟨a, x⟩ := e
    obtain ⟨rfl, n, hc, h3, -⟩ := hl.cons_inv
    cases i with
    | zero => simp [nthCell]
    | succ i => simp [nthCell, hc, ih h3]

theorem map_eraseIdx {β : Type} (f : α → β) (l : List α) (i : Nat) :
    (l.eraseIdx i).map f = (l.map f).eraseIdx i := by
  induction l generalizing i with
  | nil => rfl
  | cons a as ih => cases i <;> simp [ih]

/-! ## C12 -/

/-- One call on the pointer-level model. -/
def hsRun (h : Heap α) (l : Hdr) : HSOp α → Res (Heap α × Hdr × Option α)
  | .append x => do let (h, l) ← HSHeap.append h l x; .ok (h, l, none)
  | .prepend x => do let (h, l) ← HSHeap.prepend h l x; .ok (h, l, none)
  | .insertAfter i x => do
    let (h, l) ← HSHeap.insertAfter h l (nthCell h l.first i) x; .ok (h, l, none)
  | .insertAt pos x => do let (h, l) ← HSHeap.insertAt h l pos x; .ok (h, l, none)
  | .shift => HSHeap.shift h l
  | .pop => HSHeap.pop h l
  | .remove i => do let (h, l) ← HSHeap.remove h l (nthCell h l.first i); .ok (h, l, none)

/-- A history of calls; the elements returned are collected. -/
def hsRuns (h : Heap α) (l : Hdr) : List (HSOp α) → Res (Heap α × Hdr × List (Option α))
  | [] => .ok (h, l, [])
  | o :: os => do
    let (h, l, r) ← hsRun h l o
    let (h, l, rs) ← hsRuns h l os
    .ok (h, l, r :: rs)

/-- A history of calls on a sequence. -/
def hsSpecs (xs : List α) : List (HSOp α) → List α × List (Option α)
  | [] => (xs, [])
  | o :: os =>
    let s := o.spec xs
    let t := hsSpecs s.1 os
    (t.1, s.2 :: t.2)

/-- C12 is false, witness 1: prepend to an empty list, then append; the first element is lost. -/
theorem C12_false_prepend : ∃ h l, hsRuns (α := Nat) Heap.empty HSHeap.init [.prepend 1, .append 2] =
    .ok (h, l, [none, none]) ∧ HSHeap.dataAt h l 0 = .ok (some 2) ∧ HSHeap.dataAt h l 1 = .ok none :=
  ⟨_, _, rfl, rfl, rfl⟩

/-- C12 is false, witness 2: insert at the end, take the first, append; a freed cell is written. -/
theorem C12_false_insertAt : hsRuns (α := Nat) Heap.empty HSHeap.init
    [.append 1, .insertAt 1 2, .shift, .append 3] = .error .useAfterFree := rfl

/-- C12 is false, witness 3: prepend to an empty list, then pop; NULL is dereferenced. -/
theorem C12_false_pop : hsRuns (α := Nat) Heap.empty HSHeap.init [.prepend 1, .pop] =
    .error .nullDeref := rfl

/-- The calls that keep the tail pointer: no prepend to an empty list, no insert-at exactly at the
end of a non-empty list. -/
def hsSafe (xs : List α) : HSOp α → Prop
  | .prepend _ => xs ≠ []
  | .insertAt pos _ => pos = 0 ∨ pos ≠ xs.length
  | _ => True

/-- Every call of the history is safe at its time. -/
def hsAllSafe (xs : List α) : List (HSOp α) → Prop
  | [] => True
  | o :: os => hsSafe xs o ∧ hsAllSafe (o.spec xs).1 os

theorem hs_step {h : Heap α} {l : Hdr} {as : List (Nat × α)} (r : HSHeap.Rep h l as (!as.isEmpty))
    (o : HSOp α) (hs : hsSafe (as.map Prod.snd) o) :
    ∃ h' l' as', hsRun h l o = .ok (h', l', (o.spec (as.map Prod.snd)).2) ∧
      HSHeap.Rep h' l' as' (!as'.isEmpty) ∧ as'.map Prod.snd = (o.spec (as.map Prod.snd)).1 := by
  cases o with
  | append x =>
    cases as with
    | nil =>
      obtain ⟨h', l', e, r', -⟩ := HSHeap.append_false (as := []) (by simpa using r) x
      exact ⟨h', l', _, by simp [hsRun, e, bind, Except.bind, HSOp.spec], r',
        by simp [HSOp.spec]⟩
    | cons a as =>
      obtain ⟨h', l', e, r', -⟩ := HSHeap.append_true (as := a :: as) (by simpa using r) x
      exact ⟨h', l', (a :: as) ++ [(h.fresh, x)], by simp [hsRun, e, bind, Except.bind, HSOp.spec], r',
        by simp [HSOp.spec]⟩
  | prepend x =>
    obtain ⟨h', l', e, r', -⟩ := HSHeap.prepend_rep r x
    have : as ≠ [] := by simpa [hsSafe] using hs
    refine ⟨h', l', (h.fresh, x) :: as, by simp [hsRun, e, bind, Except.bind, HSOp.spec], ?_,
      by simp [HSOp.spec]⟩
    cases as with
    | nil => exact absurd rfl this
    | cons a as => exact r'
  | insertAfter i x =>
    have hn := nthCell_spec r.list i
    rcases Nat.lt_or_ge i as.length with hi | hi
    · obtain ⟨pre, a, y, post, rfl, rfl⟩ := split_at_pos hi
      obtain ⟨h', l', e, r', -⟩ := HSHeap.insertAfter_rep r x
      have hn' : nthCell h l.first pre.length = some a := by rw [hn]; simp
      refine ⟨h', l', pre ++ (a, y) :: (h.fresh, x) :: post, ?_, ?_, ?_⟩
      · simp [hsRun, hn', e, bind, Except.bind, HSOp.spec]
      · rw [show (!(pre ++ (a, y) :: (h.fresh, x) :: post).isEmpty) =
          (!(pre ++ (a, y) :: post).isEmpty) by cases pre <;> rfl]
        exact r'
      · simp only [HSOp.spec, List.length_map]
        rw [if_pos hi]
        simp [List.take_append, List.drop_append, ← List.map_take, ← List.map_drop,
          List.take_of_length_le, List.drop_eq_nil_of_le]
    · rw [List.getElem?_eq_none hi] at hn
      refine ⟨h, l, as, ?_, r, ?_⟩
      · simp only [hsRun, hn, HSHeap.insertAfter, Option.map_none, bind, Except.bind, HSOp.spec,
          List.length_map]
        rw [if_neg (by omega)]
      · simp only [HSOp.spec, List.length_map]
        rw [if_neg (by omega)]
  | insertAt pos x =>
    simp only [hsSafe, List.length_map] at hs
    rcases Nat.lt_or_ge as.length pos with hp | hp
    · obtain ⟨h', e, r', -⟩ := HSHeap.insertAt_out r x pos hp
      refine ⟨h', l, as, ?_, r', ?_⟩
      · simp only [hsRun, e, bind, Except.bind, HSOp.spec, List.length_map]
        rw [if_neg (by omega)]
      · simp only [HSOp.spec, List.length_map]
        rw [if_neg (by omega)]
    · cases pos with
      | zero =>
        obtain ⟨h', l', e, r', -⟩ := HSHeap.insertAt_zero r x rfl
        exact ⟨h', l', (h.fresh, x) :: as, by simp [hsRun, e, bind, Except.bind, HSOp.spec], r',
          by simp [HSOp.spec]⟩
      | succ p =>
        obtain ⟨pre, a, y, post, e, rfl⟩ := split_at_pos (show p < as.length by omega)
        subst e
        have hpost : post ≠ [] := by rintro rfl; simp at hs
        obtain ⟨h', l', e, r', -⟩ := HSHeap.insertAt_succ r x (fun _ => hpost)
        refine ⟨h', l', pre ++ (a, y) :: (h.fresh, x) :: post, ?_, ?_, ?_⟩
        · simp [hsRun, e, bind, Except.bind, HSOp.spec]
        · rw [show (!(pre ++ (a, y) :: (h.fresh, x) :: post).isEmpty) =
            (!(pre ++ (a, y) :: post).isEmpty) by cases pre <;> rfl]
          exact r'
        · simp only [HSOp.spec, List.length_map]
          rw [if_pos hp]
          simp [List.take_append, List.drop_append, ← List.map_take, ← List.map_drop,
          List.take_of_length_le, List.drop_eq_nil_of_le]
  | shift =>
    cases as with
    | nil => exact ⟨h, l, [], by simp [hsRun, HSHeap.shift_empty r, HSOp.spec], r, by simp [HSOp.spec]⟩
    | cons e es =>
      obtain ⟨a, x⟩ := e
      obtain ⟨h', l', e, r', -⟩ := HSHeap.shift_rep r
      exact ⟨h', l', es, by simp [hsRun, e, HSOp.spec], by simpa using r', by simp [HSOp.spec]⟩
  | pop =>
    rcases List.eq_nil_or_concat as with rfl | ⟨pre, ⟨t, y⟩, rfl⟩
    · exact ⟨h, l, [], by simp [hsRun, HSHeap.pop_empty r, HSOp.spec], r, by simp [HSOp.spec]⟩
    · simp only [List.concat_eq_append] at *
      have r1 : HSHeap.Rep h l (pre ++ [(t, y)]) true := by
        have : (!(pre ++ [(t, y)]).isEmpty) = true := by simp
        rw [this] at r; exact r
      obtain ⟨h', l', e, r', -⟩ := HSHeap.pop_rep r1
      exact ⟨h', l', pre, by simp [hsRun, e, HSOp.spec], r', by simp [HSOp.spec]⟩
  | remove i =>
    have hn := nthCell_spec r.list i
    rcases Nat.lt_or_ge i as.length with hi | hi
    · obtain ⟨pre, a, y, post, rfl, rfl⟩ := split_at_pos hi
      obtain ⟨h', l', e, r', -⟩ := HSHeap.remove_rep r
      have hn' : nthCell h l.first pre.length = some a := by rw [hn]; simp
      refine ⟨h', l', pre ++ post, ?_, ?_, ?_⟩
      · simp [hsRun, hn', e, bind, Except.bind, HSOp.spec]
      · have : (!(pre ++ post).isEmpty) = ((!(pre ++ (a, y) :: post).isEmpty) && !(pre ++ post).isEmpty) := by
          cases pre <;> simp
        rw [this]; exact r'
      · simp [HSOp.spec, List.eraseIdx_append_of_length_le]
    · rw [List.getElem?_eq_none hi] at hn
      refine ⟨h, l, as, ?_, r, ?_⟩
      · simp [hsRun, hn, HSHeap.remove, bind, Except.bind, HSOp.spec]
      · simp only [HSOp.spec]
        rw [List.eraseIdx_of_length_le (by simpa using hi)]

/-- C12, part that holds: every history of safe calls on a fresh list never faults, returns what the
sequence operations return, and leaves the sequence (read by `comps_hslist_data_at`).
Missing: prepend to an empty list and insert-at at the end. -/
theorem C12_sequence_partial (ops : List (HSOp α)) (hs : hsAllSafe [] ops) :
    ∃ h l, hsRuns Heap.empty HSHeap.init ops = .ok (h, l, (hsSpecs [] ops).2) ∧
      ∀ k, HSHeap.dataAt h l k = .ok (hsSpecs [] ops).1[k]? := by
  have key : ∀ (ops : List (HSOp α)) (h : Heap α) (l : Hdr) (as : List (Nat × α)),
      HSHeap.Rep h l as (!as.isEmpty) → hsAllSafe (as.map Prod.snd) ops →
      ∃ h' l' as', hsRuns h l ops = .ok (h', l', (hsSpecs (as.map Prod.snd) ops).2) ∧
        HSHeap.Rep h' l' as' (!as'.isEmpty) ∧ as'.map Prod.snd = (hsSpecs (as.map Prod.snd) ops).1 := by
    intro ops
    induction ops with
    | nil => intro h l as r _; exact ⟨h, l, as, rfl, r, rfl⟩
    | cons o os ih =>
      intro h l as r hs
      obtain ⟨h1, l1, as1, e1, r1, m1⟩ := hs_step r o hs.1
      obtain ⟨h2, l2, as2, e2, r2, m2⟩ := ih h1 l1 as1 r1 (by rw [m1]; exact hs.2)
      refine ⟨h2, l2, as2, ?_, r2, ?_⟩
      · simp only [hsRuns, e1, bind, Except.bind, e2, hsSpecs, m1]
      · rw [m2, m1]; rfl
  obtain ⟨h, l, as, e, r, m⟩ := key ops Heap.empty HSHeap.init [] (HSHeap.rep_init _) hs
  refine ⟨h, l, e, fun k => ?_⟩
  rw [HSHeap.dataAt_rep r.list, ← List.getElem?_map, m]
  rfl

/-- C12: on every list with a right tail pointer, clear frees every cell and leaves an empty list,
clone gives an independent list with the cloned elements, and value comparison is element-wise.
(Every list reached by `C12_sequence_partial` is such a list; missing: lists with a wrong tail.) -/
theorem C12_whole_list_partial (ops : List (HSOp α)) (hs : hsAllSafe [] ops) (f : α → α)
    (cmpf : α → α → Bool) :
    ∃ h l, hsRuns Heap.empty HSHeap.init ops = .ok (h, l, (hsSpecs [] ops).2) ∧
      (∃ h', HSHeap.clear h l = .ok (h', HSHeap.init)) ∧
      (∃ h' l', HSHeap.clone f h l = .ok (h', l') ∧
        (∀ k, HSHeap.dataAt h' l' k = .ok ((hsSpecs [] ops).1.map f)[k]?) ∧
        (∀ k, HSHeap.dataAt h' l k = .ok (hsSpecs [] ops).1[k]?) ∧
        HSHeap.valuesEqual cmpf h' l l' =
          .ok ((hsSpecs [] ops).1.all fun x => cmpf x (f x))) := by
  have key : ∀ (ops : List (HSOp α)) (h : Heap α) (l : Hdr) (as : List (Nat × α)),
      HSHeap.Rep h l as (!as.isEmpty) → hsAllSafe (as.map Prod.snd) ops →
      ∃ h' l' as', hsRuns h l ops = .ok (h', l', (hsSpecs (as.map Prod.snd) ops).2) ∧
        HSHeap.Rep h' l' as' (!as'.isEmpty) ∧ as'.map Prod.snd = (hsSpecs (as.map Prod.snd) ops).1 := by
    intro ops
    induction ops with
    | nil => intro h l as r _; exact ⟨h, l, as, rfl, r, rfl⟩
    | cons o os ih =>
      intro h l as r hs
      obtain ⟨h1, l1, as1, e1, r1, m1⟩ := hs_step r o hs.1
      obtain ⟨h2, l2, as2, e2, r2, m2⟩ := ih h1 l1 as1 r1 (by rw [m1]; exact hs.2)
      refine ⟨h2, l2, as2, ?_, r2, ?_⟩
      · simp only [hsRuns, e1, bind, Except.bind, e2, hsSpecs, m1]
      · rw [m2, m1]; rfl
  obtain ⟨h, l, as, e, r, m⟩ := key ops Heap.empty HSHeap.init [] (HSHeap.rep_init _) hs
  have m' : as.map Prod.snd = (hsSpecs [] ops).1 := m
  refine ⟨h, l, e, ?_, ?_⟩
  · obtain ⟨h', e', -, -⟩ := HSHeap.clear_rep r.list
    exact ⟨h', e'⟩
  · obtain ⟨h', l', cs, e', r', hcs, fr, -⟩ := HSHeap.clone_rep f r.list
    have hl : IsList h' l.first as := fr.isList r.list (by simp)
    refine ⟨h', l', e', fun k => ?_, fun k => ?_, ?_⟩
    · rw [HSHeap.dataAt_rep r'.list, ← List.getElem?_map, hcs, ← m', List.map_map]; rfl
    · rw [HSHeap.dataAt_rep hl, ← List.getElem?_map, m']
    · simp only [HSHeap.valuesEqual]
      rw [HSHeap.valuesEqualLoop_spec cmpf h' (h'.fresh + 1) as cs l.first l'.first hl r'.list
        (by have := hl.length_le; omega), ← m']
      congr 1
      have hlen : as.length = cs.length := by
        have := congrArg List.length hcs; simpa using this.symm
      have : ∀ (as cs : List (Nat × α)), cs.map Prod.snd = as.map (fun e => f e.2) →
          ((as.zip cs).all fun e => cmpf e.1.2 e.2.2) = (as.map Prod.snd).all fun x => cmpf x (f x) := by
        intro as
        induction as with
        | nil => intro cs _; simp
        | cons a as ih =>
          intro cs hcs
          cases cs with
          | nil => simp at hcs
          | cons c cs =>
            simp only [List.map_cons, List.cons.injEq] at hcs
            simp [ih cs hcs.2, hcs.1]
      rw [this as cs hcs]
      simp [hlen]

example : ∃ h l, hsRuns (α := Nat) Heap.empty HSHeap.init
    [.append 1, .append 2, .prepend 0, .insertAfter 0 5, .remove 1, .pop, .shift, .append 7] =
      .ok (h, l, [none, none, none, none, none, some 2, some 0, none]) ∧
      HSHeap.dataAt h l 1 = .ok (some 7) := by
  obtain ⟨h, l, e, d⟩ := C12_sequence_partial (α := Nat)
    [.append 1, .append 2, .prepend 0, .insertAfter 0 5, .remove 1, .pop, .shift, .append 7]
    (by simp [hsAllSafe, hsSafe, HSOp.spec])
  exact ⟨h, l, e, d 1⟩

/-! ## C13 -/

/-- One edit on the pointer-level model. -/
def editRun [BEq α] (h : Heap α) (l : ObjHeap.OL) : Edit α → Res (Heap α × ObjHeap.OL × Int)
  | .append x => do let (h, l) ← ObjHeap.append h l x; .ok (h, l, 1)
  | .insertAt pos x => ObjHeap.insertAt h l pos x
  | .insertAfter i x => ObjHeap.insertAfter h l (nthCell h l.first i) x
  | .removeAt pos => ObjHeap.removeAt h l pos
  | .remove x => ObjHeap.remove h l x
  | .set pos x => do let (h, r) ← ObjHeap.set h l pos x; .ok (h, l, r)
  | .clear => do let (h, l) ← ObjHeap.clear h l; .ok (h, l, 0)

/-- One call on list variables that share a heap. -/
def listRun [BEq α] (h : Heap α) (ls : Nat → ObjHeap.OL) :
    ListOp α → Res (Heap α × (Nat → ObjHeap.OL) × Int)
  | .edit i e => do let (h, l, r) ← editRun h (ls i) e; .ok (h, put ls i l, r)
  | .copy j i f => do let (h, l) ← ObjHeap.copy f h (ls i); .ok (h, put ls j l, 0)
  | .concat k i j => do let (h, l) ← ObjHeap.concat h (ls i) (ls j); .ok (h, put ls k l, 0)
  | .concatIn i j => do let (h, l) ← ObjHeap.concatIn h (ls i) (ls j); .ok (h, put ls i l, 0)
  | .filter j i p => do let (h, l) ← ObjHeap.filter p h (ls i); .ok (h, put ls j l, 0)

/-- A history of calls. -/
def listRuns [BEq α] (h : Heap α) (ls : Nat → ObjHeap.OL) :
    List (ListOp α) → Res (Heap α × (Nat → ObjHeap.OL) × List Int)
  | [] => .ok (h, ls, [])
  | o :: os => do
    let (h, ls, r) ← listRun h ls o
    let (h, ls, rs) ← listRuns h ls os
    .ok (h, ls, r :: rs)

/-- A history of calls on sequences. -/
def listSpecs [BEq α] (s : Nat → List α) : List (ListOp α) → (Nat → List α) × List Int
  | [] => (s, [])
  | o :: os =>
    let t := o.spec s
    let u := listSpecs t.1 os
    (u.1, t.2 :: u.2)

/-- The list is not appended to itself. -/
def noSelf : ListOp α → Prop
  | .concatIn i j => i ≠ j
  | _ => True

/-- Any number of represented lists with disjoint cells. -/
structure Lists (h : Heap α) (ls : Nat → ObjHeap.OL) (ass : Nat → List (Nat × α)) : Prop where
  rep : ∀ i, ObjHeap.Rep h (ls i) (ass i)
  disj : ∀ i j, i ≠ j → ∀ b ∈ addrs (ass i), b ∉ addrs (ass j)

theorem Lists.put {h h' : Heap α} {ls : Nat → ObjHeap.OL} {ass : Nat → List (Nat × α)}
    (g : Lists h ls ass) {i : Nat} {l' : ObjHeap.OL} {as' : List (Nat × α)}
    (r : ObjHeap.Rep h' l' as') (f : Frame h h' (ass i))
    (ha : ∀ b ∈ addrs as', b ∈ addrs (ass i) ∨ h.fresh ≤ b) :
    Lists h' (Spec.put ls i l') (Spec.put ass i as') where
  rep j := by
    by_cases hj : j = i
    · subst hj; simpa [Spec.put] using r
    · have hr := g.rep j
      simp only [Spec.put, if_neg hj]
      exact ⟨f.isList hr.list (g.disj j i hj), hr.last, hr.len⟩
  disj j k hjk b hb hc := by
    by_cases hj : j = i
    · subst hj
      simp only [Spec.put, if_true, if_neg (Ne.symm hjk)] at hb hc
      rcases ha b hb with h1 | h1
      · exact g.disj _ _ hjk b h1 hc
      · exact absurd ((g.rep k).list.bnd b hc) (by omega)
    · by_cases hk : k = i
      · subst hk
        simp only [Spec.put, if_true, if_neg hj] at hb hc
        rcases ha b hc with h1 | h1
        · exact g.disj _ _ hjk b hb h1
        · exact absurd ((g.rep j).list.bnd b hb) (by omega)
      · simp only [Spec.put, if_neg hj, if_neg hk] at hb hc
        exact g.disj _ _ hjk b hb hc

theorem map_snd_put (ass : Nat → List (Nat × α)) (i : Nat) (as' : List (Nat × α)) (xs : List α)
    (h : as'.map Prod.snd = xs) :
    (fun j => (Spec.put ass i as' j).map Prod.snd) =
      Spec.put (fun j => (ass j).map Prod.snd) i xs := by
  funext j
  simp only [Spec.put]
  split
  · exact h
  · rfl

theorem edit_step [BEq α] [LawfulBEq α] {h : Heap α} {l : ObjHeap.OL} {as : List (Nat × α)}
    (r : ObjHeap.Rep h l as) (e : Edit α) :
    ∃ h' l' as', editRun h l e = .ok (h', l', (e.spec (as.map Prod.snd)).2) ∧
      ObjHeap.Rep h' l' as' ∧ Frame h h' as ∧ (∀ b ∈ addrs as', b ∈ addrs as ∨ h.fresh ≤ b) ∧
      as'.map Prod.snd = (e.spec (as.map Prod.snd)).1 := by
  cases e with
  | append x =>
    obtain ⟨h', l', e, r', f, -⟩ := ObjHeap.append_rep r x
    refine ⟨h', l', _, by simp [editRun, e, bind, Except.bind, Edit.spec], r', f, ?_, by simp [Edit.spec]⟩
    intro b hb
    simp only [addrs, List.map_append, List.mem_append, List.map_cons, List.map_nil,
      List.mem_singleton] at hb
    rcases hb with hb | rfl
    · exact .inl hb
    · exact .inr (Nat.le_refl _)
  | insertAt pos x =>
    rcases Nat.lt_or_ge as.length pos with hp | hp
    · refine ⟨h, l, as, ?_, r, Frame.refl _ _, fun b hb => .inl hb, ?_⟩
      · simp only [editRun, ObjHeap.insertAt_out r x pos hp, Edit.spec, List.length_map]
        rw [if_neg (by omega)]
      · simp only [Edit.spec, List.length_map]
        rw [if_neg (by omega)]
    · obtain ⟨h', l', e, r', f⟩ := ObjHeap.insertAt_rep r x pos hp
      refine ⟨h', l', _, ?_, r', f, ?_, ?_⟩
      · simp only [editRun, e, Edit.spec, List.length_map]
        rw [if_pos hp]
      · intro b hb
        simp only [addrs, List.map_append, List.mem_append, List.map_cons, List.mem_cons] at hb
        rcases hb with hb | rfl | hb
        · exact .inl (List.map_subset _ (List.take_subset _ _) hb)
        · exact .inr (Nat.le_refl _)
        · exact .inl (List.map_subset _ (List.drop_subset _ _) hb)
      · simp only [Edit.spec, List.length_map]
        rw [if_pos hp]
        simp [List.map_take, List.map_drop]
  | insertAfter i x =>
    have hn := nthCell_spec r.list i
    rcases Nat.lt_or_ge i as.length with hi | hi
    · obtain ⟨pre, a, y, post, rfl, rfl⟩ := split_at_pos hi
      obtain ⟨h', l', e, r', f⟩ := ObjHeap.insertAfter_rep r x
      have hn' : nthCell h l.first pre.length = some a := by rw [hn]; simp
      refine ⟨h', l', _, ?_, r', f, ?_, ?_⟩
      · simp only [editRun, hn', e, Edit.spec, List.length_map]
        rw [if_pos hi]
      · intro b hb
        simp only [addrs, List.map_append, List.mem_append, List.map_cons, List.mem_cons] at hb ⊢
        rcases hb with hb | rfl | rfl | hb
        · exact .inl (.inl hb)
        · exact .inl (.inr (.inl rfl))
        · exact .inr (Nat.le_refl _)
        · exact .inl (.inr (.inr hb))
      · simp only [Edit.spec, List.length_map]
        rw [if_pos hi]
        simp [List.take_append, List.drop_append, ← List.map_take, ← List.map_drop,
          List.take_of_length_le, List.drop_eq_nil_of_le]
    · rw [List.getElem?_eq_none hi] at hn
      refine ⟨h, l, as, ?_, r, Frame.refl _ _, fun b hb => .inl hb, ?_⟩
      · simp only [editRun, hn, Option.map_none, ObjHeap.insertAfter, Edit.spec, List.length_map]
        rw [if_neg (by omega)]
      · simp only [Edit.spec, List.length_map]
        rw [if_neg (by omega)]
  | removeAt pos =>
    rcases Nat.lt_or_ge pos as.length with hp | hp
    · obtain ⟨h', l', e, r', f⟩ := ObjHeap.removeAt_rep r pos hp
      refine ⟨h', l', _, ?_, r', f, ?_, ?_⟩
      · simp only [editRun, e, Edit.spec, List.length_map]
        rw [if_pos hp]
      · intro b hb
        exact .inl (List.map_subset _ (List.eraseIdx_subset) hb)
      · simp only [Edit.spec, List.length_map]
        rw [if_pos hp]
        exact map_eraseIdx _ _ _
    · refine ⟨h, l, as, ?_, r, Frame.refl _ _, fun b hb => .inl hb, ?_⟩
      · simp only [editRun, ObjHeap.removeAt_out r pos hp, Edit.spec, List.length_map]
        rw [if_neg (by omega)]
      · simp only [Edit.spec, List.length_map]
        rw [if_neg (by omega)]
  | remove x =>
    by_cases hm : ∀ e ∈ as, e.2 ≠ x
    · have hc : (as.map Prod.snd).contains x = false := by
        simp only [List.contains_eq_mem, List.mem_map, decide_eq_false_iff_not]
        rintro ⟨e, he, rfl⟩
        exact hm e he rfl
      refine ⟨h, l, as, ?_, r, Frame.refl _ _, fun b hb => .inl hb, ?_⟩
      · simp only [editRun, ObjHeap.remove_none r hm, Edit.spec]
        rw [if_neg (by rw [hc]; simp)]
      · simp only [Edit.spec]
        rw [if_neg (by rw [hc]; simp)]
    · have hsplit : ∀ as : List (Nat × α), (¬ ∀ e ∈ as, e.2 ≠ x) → ∃ pre a post,
          as = pre ++ (a, x) :: post ∧ ∀ e ∈ pre, e.2 ≠ x := by
        intro as
        induction as with
        | nil => intro h; simp at h
        | cons e es ih =>
          intro hh
          obtain ⟨a, z⟩ := e
          by_cases hz : z = x
          · subst hz; exact ⟨[], a, es, rfl, by simp⟩
          · obtain ⟨pre, a', post, rfl, hp⟩ := ih (fun hall => hh (by
              intro e he
              rcases List.mem_cons.1 he with rfl | he
              · exact hz
              · exact hall e he))
            refine ⟨(a, z) :: pre, a', post, rfl, ?_⟩
            intro e he
            rcases List.mem_cons.1 he with rfl | he
            · exact hz
            · exact hp e he
      obtain ⟨pre, a, post, rfl, hp⟩ := hsplit as hm
      obtain ⟨h', l', e, r', f⟩ := ObjHeap.remove_some r hp
      have hc : ((pre ++ (a, x) :: post).map Prod.snd).contains x = true := by simp
      refine ⟨h', l', _, ?_, r', f, ?_, ?_⟩
      · simp only [editRun, e, Edit.spec, hc, if_true]
      · intro b hb
        simp only [addrs, List.map_append, List.mem_append, List.map_cons, List.mem_cons] at hb ⊢
        rcases hb with hb | hb
        · exact .inl (.inl hb)
        · exact .inl (.inr (.inr hb))
      · simp only [Edit.spec, hc, if_true]
        have hnm : ¬ x ∈ pre.map Prod.snd := by
          rw [List.mem_map]
          rintro ⟨q, hq, hqx⟩
          exact hp q hq hqx
        rw [List.map_append, List.map_append, List.map_cons, List.erase_append_right _ hnm]
        simp
  | set pos x =>
    rcases Nat.lt_or_ge pos as.length with hp | hp
    · obtain ⟨h', e, r', f⟩ := ObjHeap.set_rep r pos x hp
      refine ⟨h', l, _, ?_, r', f, ?_, ?_⟩
      · simp only [editRun, e, bind, Except.bind, Edit.spec, List.length_map]
        rw [if_pos hp]
      · intro b hb
        left
        simp only [addrs, List.map_set] at hb
        have : (as.map Prod.fst).set pos as[pos].1 = as.map Prod.fst := by
          have e : as[pos].1 = (as.map Prod.fst)[pos]'(by simpa using hp) := by simp
          rw [e, List.set_getElem_self]
        rwa [this] at hb
      · simp only [Edit.spec, List.length_map]
        rw [if_pos hp]
        simp [List.map_set]
    · refine ⟨h, l, as, ?_, r, Frame.refl _ _, fun b hb => .inl hb, ?_⟩
      · simp only [editRun, ObjHeap.set_out r pos x hp, bind, Except.bind, Edit.spec, List.length_map]
        rw [if_neg (by omega)]
      · simp only [Edit.spec, List.length_map]
        rw [if_neg (by omega)]
  | clear =>
    obtain ⟨h', l', e, r', f, -⟩ := ObjHeap.clear_rep r
    exact ⟨h', l', [], by simp [editRun, e, bind, Except.bind, Edit.spec], r', f, by simp,
      by simp [Edit.spec]⟩

theorem list_step [BEq α] [LawfulBEq α] {h : Heap α} {ls : Nat → ObjHeap.OL}
    {ass : Nat → List (Nat × α)} (g : Lists h ls ass) (o : ListOp α) (ho : noSelf o) :
    ∃ h' ls' ass', listRun h ls o = .ok (h', ls', (o.spec fun i => (ass i).map Prod.snd).2) ∧
      Lists h' ls' ass' ∧
      (fun i => (ass' i).map Prod.snd) = (o.spec fun i => (ass i).map Prod.snd).1 := by
  cases o with
  | edit i e =>
    obtain ⟨h', l', as', e1, r', f, ha, hm⟩ := edit_step (g.rep i) e
    exact ⟨h', Spec.put ls i l', Spec.put ass i as', by
      simp [listRun, e1, bind, Except.bind, ListOp.spec], g.put r' f ha, map_snd_put _ _ _ _ hm⟩
  | copy j i f =>
    obtain ⟨h', l', cs, e1, r', hcs, fr, hge⟩ := ObjHeap.copy_rep f (g.rep i)
    refine ⟨h', Spec.put ls j l', Spec.put ass j cs, by
      simp [listRun, e1, bind, Except.bind, ListOp.spec], g.put r' ⟨fr.fresh, fun b hb _ =>
        fr.same b hb (by simp)⟩ (fun b hb => .inr (hge b hb)), map_snd_put _ _ _ _ ?_⟩
    rw [hcs, List.map_map]; rfl
  | concat k i j =>
    have r1 := g.rep i
    have r2 := g.rep j
    obtain ⟨h1, l', cs, e, r', hcs, fr, hge⟩ := ObjHeap.appendLoop_spec id (h.fresh + 1) (ass i) h
      (ls i).first ObjHeap.create [] r1.list (ObjHeap.rep_create h) (by simp)
      (by have := r1.list.length_le; omega)
    have hb1 : IsList h1 (ls j).first (ass j) := fr.isList r2.list (by simp)
    obtain ⟨h2, l'', ds, e2, r'', hds, fr2, hge2⟩ := ObjHeap.appendLoop_spec id (h1.fresh + 1) (ass j)
      h1 (ls j).first l' ([] ++ cs) hb1 r' (by
        intro b hb hm
        have h1 := r2.list.bnd b hb
        have h2 := hge b (by simpa using hm)
        omega) (by have := hb1.length_le; omega)
    have e3 : ObjHeap.concat h (ls i) (ls j) = .ok (h2, l'') := by
      simp only [ObjHeap.concat, e, bind, Except.bind]; exact e2
    refine ⟨h2, Spec.put ls k l'', Spec.put ass k (cs ++ ds), by
      simp [listRun, e3, bind, Except.bind, ListOp.spec], ?_, map_snd_put _ _ _ _ ?_⟩
    · refine g.put (by simpa using r'') ⟨Nat.le_trans fr.fresh fr2.fresh, fun b hb _ => ?_⟩ ?_
      · have := fr.fresh
        rw [fr2.same b (by omega), fr.same b hb (by simp)]
        intro hm
        have := hge b (by simpa using hm)
        omega
      · intro b hb
        simp only [addrs, List.map_append, List.mem_append] at hb
        have := fr.fresh
        rcases hb with hb | hb
        · exact .inr (hge b hb)
        · have := hge2 b hb; exact .inr (by omega)
    · simp [hcs, hds]
  | concatIn i j =>
    have hij : i ≠ j := ho
    obtain ⟨h', l', cs, e, r', hcs, fr, hge⟩ := ObjHeap.appendLoop_spec id (h.fresh + 1) (ass j) h
      (ls j).first (ls i) (ass i) (g.rep j).list (g.rep i) (g.disj j i (Ne.symm hij))
      (by have := (g.rep j).list.length_le; omega)
    have e3 : ObjHeap.concatIn h (ls i) (ls j) = .ok (h', l') := e
    refine ⟨h', Spec.put ls i l', Spec.put ass i (ass i ++ cs), by
      simp [listRun, e3, bind, Except.bind, ListOp.spec], ?_, map_snd_put _ _ _ _ ?_⟩
    · refine g.put r' fr ?_
      intro b hb
      simp only [addrs, List.map_append, List.mem_append] at hb
      rcases hb with hb | hb
      · exact .inl hb
      · exact .inr (hge b hb)
    · simp [hcs]
  | filter j i p =>
    obtain ⟨h', l', cs, e1, r', hcs, fr, hge⟩ := ObjHeap.filter_rep p (g.rep i)
    exact ⟨h', Spec.put ls j l', Spec.put ass j cs, by
      simp [listRun, e1, bind, Except.bind, ListOp.spec], g.put r' ⟨fr.fresh, fun b hb _ =>
        fr.same b hb (by simp)⟩ (fun b hb => .inr (hge b hb)), map_snd_put _ _ _ _ hcs⟩

theorem lists_reach [BEq α] [LawfulBEq α] (ops : List (ListOp α)) (hns : ∀ o ∈ ops, noSelf o) :
    ∃ h ls ass, listRuns Heap.empty (fun _ => ObjHeap.create) ops =
        .ok (h, ls, (listSpecs (fun _ => []) ops).2) ∧ Lists h ls ass ∧
      (fun i => (ass i).map Prod.snd) = (listSpecs (fun _ => []) ops).1 := by
  have key : ∀ (ops : List (ListOp α)) (h : Heap α) (ls : Nat → ObjHeap.OL)
      (ass : Nat → List (Nat × α)), (∀ o ∈ ops, noSelf o) → Lists h ls ass →
      ∃ h' ls' ass', listRuns h ls ops =
          .ok (h', ls', (listSpecs (fun i => (ass i).map Prod.snd) ops).2) ∧ Lists h' ls' ass' ∧
        (fun i => (ass' i).map Prod.snd) = (listSpecs (fun i => (ass i).map Prod.snd) ops).1 := by
    intro ops
    induction ops with
    | nil => intro h ls ass _ g; exact ⟨h, ls, ass, rfl, g, rfl⟩
    | cons o os ih =>
      intro h ls ass hns g
      obtain ⟨h1, ls1, ass1, e1, g1, m1⟩ := list_step g o (hns o (by simp))
      obtain ⟨h2, ls2, ass2, e2, g2, m2⟩ := ih h1 ls1 ass1 (fun o ho => hns o (by simp [ho])) g1
      refine ⟨h2, ls2, ass2, ?_, g2, ?_⟩
      · simp only [listRuns, e1, bind, Except.bind, e2, listSpecs, m1]
      · rw [m2, m1]; rfl
  exact key ops Heap.empty _ (fun _ => []) hns
    ⟨fun _ => ObjHeap.rep_create _, fun i j _ b hb => by simp at hb⟩

/-- C13: every history of edits over any number of lists that share a heap never faults, returns
what the sequence edits return, and leaves the sequences: length field, element at every position
and index of every object. -/
theorem C13_edits [BEq α] [LawfulBEq α] (ops : List (ListOp α)) (hns : ∀ o ∈ ops, noSelf o) :
    ∃ h ls, listRuns Heap.empty (fun _ => ObjHeap.create) ops =
        .ok (h, ls, (listSpecs (fun _ => []) ops).2) ∧
      ∀ i, (ls i).len = ((listSpecs (fun _ => []) ops).1 i).length ∧
        (∀ k, ObjHeap.get h (ls i) k = .ok ((listSpecs (fun _ => []) ops).1 i)[k]?) ∧
        (∀ x, ObjHeap.index h (ls i) x =
          .ok (if x ∈ (listSpecs (fun _ => []) ops).1 i
            then Int.ofNat (((listSpecs (fun _ => []) ops).1 i).idxOf x) else -1)) := by
  obtain ⟨h, ls, ass, e, g, m⟩ := lists_reach ops hns
  refine ⟨h, ls, e, fun i => ?_⟩
  have mi : (ass i).map Prod.snd = (listSpecs (fun _ => []) ops).1 i := congrFun m i
  rw [← mi]
  refine ⟨by simp [(g.rep i).len], fun k => ?_, fun x => ObjHeap.index_rep (g.rep i) x⟩
  rw [ObjHeap.get_rep (g.rep i), List.getElem?_map]

example : ∃ h ls, listRuns (α := Nat) Heap.empty (fun _ => ObjHeap.create)
    [.edit 0 (.append 5), .edit 0 (.insertAt 0 6), .edit 0 (.insertAt 9 1), .copy 1 0 id,
      .edit 0 (.removeAt 1), .concatIn 0 1, .edit 0 (.set 2 8), .edit 1 (.remove 6),
      .filter 2 0 (· < 7)] = .ok (h, ls, [1, 1, -1, 0, 1, 0, 0, 1, 0]) ∧
    ObjHeap.get h (ls 0) 2 = .ok (some 8) ∧ ObjHeap.get h (ls 1) 0 = .ok (some 5) ∧
    (ls 2).len = 2 := by
  obtain ⟨h, ls, e, o⟩ := C13_edits (α := Nat)
    [.edit 0 (.append 5), .edit 0 (.insertAt 0 6), .edit 0 (.insertAt 9 1), .copy 1 0 id,
      .edit 0 (.removeAt 1), .concatIn 0 1, .edit 0 (.set 2 8), .edit 1 (.remove 6),
      .filter 2 0 (· < 7)] (by simp [noSelf])
  exact ⟨h, ls, e, (o 0).2.1 2, (o 1).2.1 0, (o 2).1⟩

/-! ## C14 -/

/-- C14 is false, witness 1: the slice 0..2 of a list of two elements has one element. -/
theorem C14_false_end : ∃ h ls h' l', listRuns (α := Nat) Heap.empty (fun _ => ObjHeap.create)
    [.edit 0 (.append 5), .edit 0 (.append 6)] = .ok (h, ls, [1, 1]) ∧
    ObjHeap.sublistIdx h (ls 0) 0 2 = .ok (h', l') ∧ l'.len = 1 :=
  ⟨_, _, _, _, rfl, rfl, rfl⟩

/-- C14 is false, witness 2: slicing 0..4 with step 1 of a list of five elements gives one
element. -/
theorem C14_false_step : ∃ h ls h' l', listRuns (α := Nat) Heap.empty (fun _ => ObjHeap.create)
    [.edit 0 (.append 5), .edit 0 (.append 6), .edit 0 (.append 7), .edit 0 (.append 8),
      .edit 0 (.append 9)] = .ok (h, ls, [1, 1, 1, 1, 1]) ∧
    ObjHeap.sublistIdxStep h (ls 0) 0 4 1 = .ok (h', l') ∧ l'.len = 1 :=
  ⟨_, _, _, _, rfl, rfl, rfl⟩

/-- C14, exact behaviour of the indexed slice: the elements at positions i..j-1, but never the last
element of the list.  Missing: slices that reach the end of the list (`C14_false_end`). -/
theorem C14_slice_partial [BEq α] [LawfulBEq α] (ops : List (ListOp α)) (hns : ∀ o ∈ ops, noSelf o)
    (v i j : Nat) (hij : i ≤ j) :
    ∃ h ls h' l', listRuns Heap.empty (fun _ => ObjHeap.create) ops =
        .ok (h, ls, (listSpecs (fun _ => []) ops).2) ∧
      ObjHeap.sublistIdx h (ls v) i j = .ok (h', l') ∧
      ∀ k, ObjHeap.get h' l' k =
        .ok (((((listSpecs (fun _ => []) ops).1 v).dropLast).drop i).take (j - i))[k]? := by
  obtain ⟨h, ls, ass, e, g, m⟩ := lists_reach ops hns
  have mi : (ass v).map Prod.snd = (listSpecs (fun _ => []) ops).1 v := congrFun m v
  obtain ⟨h', l', cs, e', r', hcs⟩ := ObjHeap.sublistIdx_rep (g.rep v) i j hij
  refine ⟨h, ls, h', l', e, e', fun k => ?_⟩
  rw [ObjHeap.get_rep r', ← List.getElem?_map, hcs, ← mi]
  simp [List.map_take, List.map_drop, List.map_dropLast]

/-- C14: below the end of the list the indexed slice is exact.  Missing: as above. -/
theorem C14_inner_partial [BEq α] [LawfulBEq α] (ops : List (ListOp α)) (hns : ∀ o ∈ ops, noSelf o)
    (v i j : Nat) (hij : i ≤ j) (hj : j < ((listSpecs (fun _ => []) ops).1 v).length) :
    ∃ h ls h' l', listRuns Heap.empty (fun _ => ObjHeap.create) ops =
        .ok (h, ls, (listSpecs (fun _ => []) ops).2) ∧
      ObjHeap.sublistIdx h (ls v) i j = .ok (h', l') ∧
      ∀ k, k < j - i → ObjHeap.get h' l' k = .ok ((listSpecs (fun _ => []) ops).1 v)[i + k]? := by
  obtain ⟨h, ls, h', l', e, e', hk⟩ := C14_slice_partial ops hns v i j hij
  refine ⟨h, ls, h', l', e, e', fun k hlt => ?_⟩
  rw [hk, List.getElem?_take_of_lt hlt, List.getElem?_drop, List.dropLast_eq_take,
    List.getElem?_take_of_lt (by omega)]

/-- C14: the iterator slice from position i to the iterator at position j is exact, also at the end
(`j` = length: the NULL iterator). -/
theorem C14_iterators [BEq α] [LawfulBEq α] (ops : List (ListOp α)) (hns : ∀ o ∈ ops, noSelf o)
    (v i j : Nat) (hij : i ≤ j) (hj : j ≤ ((listSpecs (fun _ => []) ops).1 v).length) :
    ∃ h ls h' l', listRuns Heap.empty (fun _ => ObjHeap.create) ops =
        .ok (h, ls, (listSpecs (fun _ => []) ops).2) ∧
      ObjHeap.sublistIt h (nthCell h (ls v).first i) (nthCell h (ls v).first j) = .ok (h', l') ∧
      l'.len = j - i ∧
      ∀ k, ObjHeap.get h' l' k = .ok ((((listSpecs (fun _ => []) ops).1 v).drop i).take (j - i))[k]? := by
  obtain ⟨h, ls, ass, e, g, m⟩ := lists_reach ops hns
  have mi : (ass v).map Prod.snd = (listSpecs (fun _ => []) ops).1 v := congrFun m v
  have r := g.rep v
  have hlen : j ≤ (ass v).length := by rw [← mi] at hj; simpa using hj
  have split : ass v = (ass v).take i ++ (((ass v).drop i).take (j - i) ++ (ass v).drop j) := by
    rw [show (ass v).drop j = ((ass v).drop i).drop (j - i) by rw [List.drop_drop]; congr 1; omega]
    rw [List.take_append_drop, List.take_append_drop]
  have hsuf : IsList h ((ass v)[i]?.map Prod.fst) (((ass v).drop i).take (j - i) ++ (ass v).drop j) := by
    have hl := r.list
    rw [split] at hl
    obtain ⟨p, -, h2⟩ := hl.suffix
    have hp := h2.head
    rw [hp] at h2
    have : (((ass v).drop i).take (j - i) ++ (ass v).drop j) = (ass v).drop i := by
      rw [show (ass v).drop j = ((ass v).drop i).drop (j - i) by rw [List.drop_drop]; congr 1; omega]
      exact List.take_append_drop _ _
    rw [this] at h2 ⊢
    rwa [List.head?_drop] at h2
  have hle := hsuf.length_le
  obtain ⟨h', l', cs, e', r', hcs⟩ := ObjHeap.sublistItLoop_spec (h.fresh + 1) _ _ h _ ObjHeap.create []
    hsuf (ObjHeap.rep_create h) (by simp) (by simp at hle ⊢; omega)
  rw [List.head?_drop] at e'
  refine ⟨h, ls, h', l', e, by rw [nthCell_spec r.list, nthCell_spec r.list]; exact e', ?_, fun k => ?_⟩
  · have h1 : cs.length = j - i := by
      have := congrArg List.length hcs
      simp only [List.length_map, List.length_take, List.length_drop] at this
      omega
    rw [r'.len]; simpa using h1
  · rw [ObjHeap.get_rep r', ← List.getElem?_map, List.nil_append, hcs, ← mi]
    simp [List.map_take, List.map_drop]

example : ∃ h ls h' l', listRuns (α := Nat) Heap.empty (fun _ => ObjHeap.create)
    [.edit 0 (.append 5), .edit 0 (.append 6), .edit 0 (.append 7)] = .ok (h, ls, [1, 1, 1]) ∧
    ObjHeap.sublistIt h (nthCell h (ls 0).first 1) (nthCell h (ls 0).first 3) = .ok (h', l') ∧
    l'.len = 2 ∧ ObjHeap.get h' l' 1 = .ok (some 7) := by
  obtain ⟨h, ls, h', l', e, e', hl, hk⟩ := C14_iterators (α := Nat)
    [.edit 0 (.append 5), .edit 0 (.append 6), .edit 0 (.append 7)] (by simp [noSelf]) 0 1 3
    (by omega) (by simp [listSpecs, ListOp.spec, Edit.spec, Spec.put])
  exact ⟨h, ls, h', l', e, e', hl, hk 1⟩

example := C14_inner_partial (α := Nat) [.edit 0 (.append 5), .edit 0 (.append 6)] (by simp [noSelf])
  0 0 1 (by omega) (by simp [listSpecs, ListOp.spec, Edit.spec, Spec.put])

/-! ## C15 -/

/-- C15: two lists compare equal exactly if they have the same length and equal elements at every
position, for every element comparison. -/
theorem C15_cmp [BEq α] [LawfulBEq α] (ops : List (ListOp α)) (hns : ∀ o ∈ ops, noSelf o)
    (cmpf : α → α → Bool) (i j : Nat) :
    ∃ h ls b, listRuns Heap.empty (fun _ => ObjHeap.create) ops =
        .ok (h, ls, (listSpecs (fun _ => []) ops).2) ∧
      ObjHeap.cmp cmpf h (ls i) (ls j) = .ok b ∧
      (b = true ↔ ((listSpecs (fun _ => []) ops).1 i).length = ((listSpecs (fun _ => []) ops).1 j).length ∧
        ∀ (k : Nat) (x y : α), ((listSpecs (fun _ => []) ops).1 i)[k]? = some x →
          ((listSpecs (fun _ => []) ops).1 j)[k]? = some y → cmpf x y = true) := by
  obtain ⟨h, ls, ass, e, g, m⟩ := lists_reach ops hns
  have mi : (ass i).map Prod.snd = (listSpecs (fun _ => []) ops).1 i := congrFun m i
  have mj : (ass j).map Prod.snd = (listSpecs (fun _ => []) ops).1 j := congrFun m j
  refine ⟨h, ls, _, e, ObjHeap.cmpLoop_spec cmpf h (h.fresh + 1) (ass i) (ass j) _ _ (g.rep i).list
    (g.rep j).list (by have := (g.rep i).list.length_le; omega), ?_⟩
  rw [← mi, ← mj]
  generalize ass i = as
  generalize ass j = bs
  induction as generalizing bs with
  | nil => cases bs with
    | nil => simp
    | cons b bs => simp
  | cons a as ih => cases bs with
    | nil => simp
    | cons b bs =>
      have := ih bs
      simp only [List.length_map] at this ⊢
      simp only [List.length_cons, List.zip_cons_cons, List.all_cons, Bool.and_eq_true, decide_eq_true_eq, Nat.add_right_cancel_iff] at this ⊢
      constructor
      · rintro ⟨h1, h2, h3⟩
        refine ⟨h1, fun k x y hx hy => ?_⟩
        cases k with
        | zero =>
          simp at hx hy
          rw [← hx, ← hy]; exact h2
        | succ k => exact (this.1 ⟨h1, h3⟩).2 k x y (by simpa using hx) (by simpa using hy)
      · rintro ⟨h1, h2⟩
        have h3 := this.2 ⟨h1, fun k x y hx hy => h2 (k + 1) x y (by simpa using hx) (by simpa using hy)⟩
        exact ⟨h1, h2 0 _ _ (by simp) (by simp), h3.2⟩

example : ∃ h ls b, listRuns (α := Nat) Heap.empty (fun _ => ObjHeap.create)
    [.edit 0 (.append 5), .edit 0 (.append 6), .copy 1 0 (· + 10)] = .ok (h, ls, [1, 1, 0]) ∧
    ObjHeap.cmp (fun x y => x % 10 == y % 10) h (ls 0) (ls 1) = .ok b ∧ b = true := by
  obtain ⟨h, ls, b, e1, e2, e3⟩ := C15_cmp (α := Nat)
    [.edit 0 (.append 5), .edit 0 (.append 6), .copy 1 0 (· + 10)] (by simp [noSelf])
    (fun x y => x % 10 == y % 10) 0 1
  refine ⟨h, ls, b, e1, e2, e3.2 ⟨rfl, fun k x y hx hy => ?_⟩⟩
  match k with
  | 0 => cases hx; cases hy; rfl
  | 1 => cases hx; cases hy; rfl
  | k + 2 => cases hx

/-! ## C47 iterator at a position -/

/-- C47 is false in every case: `comps_objlist_get_it` returns NULL for every list and position. -/
theorem C47_false [BEq α] [LawfulBEq α] (ops : List (ListOp α)) (hns : ∀ o ∈ ops, noSelf o)
    (v k : Nat) :
    ∃ h ls, listRuns Heap.empty (fun _ => ObjHeap.create) ops =
        .ok (h, ls, (listSpecs (fun _ => []) ops).2) ∧ ObjHeap.getIt h (ls v) k = .ok none := by
  obtain ⟨h, ls, ass, e, g, m⟩ := lists_reach ops hns
  exact ⟨h, ls, e, ObjHeap.getIt_rep (g.rep v) k⟩

example := C47_false (α := Nat) [.edit 0 (.append 5)] (by simp [noSelf]) 0 0

/-! ## C48 insert before an iterator -/

/-- C48 is false, witness 1: inserting before the first element walks off the list. -/
theorem C48_false_first : ∃ h ls, listRuns (α := Nat) Heap.empty (fun _ => ObjHeap.create)
    [.edit 0 (.append 5), .edit 0 (.append 6)] = .ok (h, ls, [1, 1]) ∧
    ObjHeap.insertBefore h (ls 0) (nthCell h (ls 0).first 0) 7 = .error .nullDeref :=
  ⟨_, _, rfl, rfl⟩

/-- C48 is false, witness 2: inserting before the second element inserts before the first. -/
theorem C48_false_second : ∃ h ls h' l', listRuns (α := Nat) Heap.empty (fun _ => ObjHeap.create)
    [.edit 0 (.append 5), .edit 0 (.append 6)] = .ok (h, ls, [1, 1]) ∧
    ObjHeap.insertBefore h (ls 0) (nthCell h (ls 0).first 1) 7 = .ok (h', l', 1) ∧
    ObjHeap.get h' l' 0 = .ok (some 7) ∧ ObjHeap.get h' l' 1 = .ok (some 5) :=
  ⟨_, _, _, _, rfl, rfl, rfl, rfl⟩

theorem insertBeforeLoop_spec {h : Heap α} {i b : Nat} {y z : α} {post : List (Nat × α)} (fuel : Nat)
    (pre : List (Nat × α)) : ∀ (p : Option Nat), IsList h p (pre ++ (b, z) :: (i, y) :: post) →
      pre.length < fuel → ObjHeap.insertBeforeLoop h i fuel p = .ok (some b) := by
  induction fuel generalizing pre with
  | zero => intro p _ hf; omega
  | succ fuel ih =>
    intro p hl hf
    cases pre with
    | nil =>
      obtain ⟨rfl, n, hc, h3, -⟩ := IsList.cons_inv hl
      have hn : n = some i := h3.cons_inv.1
      simp [ObjHeap.insertBeforeLoop, deref_ok hc, bind, Except.bind, hn]
    | cons e es =>
      obtain ⟨a, x⟩ := e
      obtain ⟨rfl, n, hc, h3, hna⟩ := IsList.cons_inv hl
      have hn : n ≠ some i := by
        intro hni
        have hh := h3.head
        have hnd := h3.nodup
        rw [hni] at hh
        cases es with
        | nil =>
          simp at hh
          subst hh
          simp at hnd
        | cons e2 es2 =>
          simp at hh
          subst hh
          simp at hnd
      simp only [ObjHeap.insertBeforeLoop, deref_ok hc, bind, Except.bind]
      rw [if_neg hn]
      exact ih es n h3 (by simp at hf; omega)

/-- C48, part that holds: from the third element on, the new element goes before the given one.
Missing: the first two positions. -/
theorem C48_insert_before_partial [BEq α] [LawfulBEq α] (ops : List (ListOp α))
    (hns : ∀ o ∈ ops, noSelf o) (v k : Nat) (x : α) (hk : 2 ≤ k)
    (hl : k < ((listSpecs (fun _ => []) ops).1 v).length) :
    ∃ h ls h' l', listRuns Heap.empty (fun _ => ObjHeap.create) ops =
        .ok (h, ls, (listSpecs (fun _ => []) ops).2) ∧
      ObjHeap.insertBefore h (ls v) (nthCell h (ls v).first k) x = .ok (h', l', 1) ∧
      l'.len = ((listSpecs (fun _ => []) ops).1 v).length + 1 ∧
      ∀ m, ObjHeap.get h' l' m = .ok (((listSpecs (fun _ => []) ops).1 v).take k ++
        x :: ((listSpecs (fun _ => []) ops).1 v).drop k)[m]? := by
  obtain ⟨h, ls, ass, e, g, m⟩ := lists_reach ops hns
  have mi : (ass v).map Prod.snd = (listSpecs (fun _ => []) ops).1 v := congrFun m v
  rw [← mi] at hl ⊢
  rw [List.length_map] at hl
  have r := g.rep v
  generalize ass v = as at r hl
  obtain ⟨p, rfl⟩ : ∃ p, k = p + 1 := ⟨k - 1, by omega⟩
  obtain ⟨pre, b, z, rest, rfl, rfl⟩ := split_at_pos (show p < as.length by omega)
  cases rest with
  | nil => simp at hl
  | cons e' post =>
    obtain ⟨i, y⟩ := e'
    have hfirst : ¬ some b = (ls v).first := by
      rw [r.list.head]
      have hnd := r.list.nodup
      cases pre with
      | nil => simp at hk
      | cons q qs =>
        simp only [List.cons_append, List.head?_cons, Option.map_some, Option.some.injEq]
        rintro rfl
        simp at hnd
    obtain ⟨n1, n2, n3, n4, n5, n6⟩ := r.list.nodup_mid
    obtain ⟨n, hc, h3⟩ := r.list.mid_cell
    have hle := r.list.length_le
    have hloop := insertBeforeLoop_spec (h := (h.alloc ⟨none, x⟩).1) (h.fresh + 1 + 1) pre (ls v).first
      (isList_alloc _ r.list) (by simp at hle; omega)
    have hca0 : (h.alloc ⟨none, x⟩).1.cells b = some ⟨n, z⟩ := by
      simp only [alloc_cells]; rw [if_neg (by omega)]; exact hc
    have hca : ((h.alloc ⟨none, x⟩).1.write h.fresh ⟨n, x⟩).cells b = some ⟨n, z⟩ := by
      simp only [write_cells]; rw [if_neg (by omega)]; exact hca0
    obtain ⟨i1, i2⟩ := isList_insert (x := x) r.list hc
      (h2 := ((h.alloc ⟨none, x⟩).1.write h.fresh ⟨n, x⟩).write b ⟨some h.fresh, z⟩) (by simp) (by simp)
      (by simp only [write_cells]; rw [if_neg (by omega), if_pos trivial])
      (by intro c h1 h2; simp only [write_cells, alloc_cells]; rw [if_neg h1, if_neg h2, if_neg h2])
    have r' : ObjHeap.Rep (((h.alloc ⟨none, x⟩).1.write h.fresh ⟨n, x⟩).write b ⟨some h.fresh, z⟩)
        ⟨(ls v).first, (ls v).last, (ls v).len + 1⟩ (pre ++ (b, z) :: (h.fresh, x) :: (i, y) :: post) := by
      refine ⟨i1, ?_, by simp [r.len]; omega⟩
      simp only [r.last]
      rw [ObjHeap.getLast?_mid_ne (post := (i, y) :: post) (by simp),
        ObjHeap.getLast?_mid_ne (post := (h.fresh, x) :: (i, y) :: post) (by simp), List.getLast?_cons_cons]
    refine ⟨h, ls, ((h.alloc ⟨none, x⟩).1.write h.fresh ⟨n, x⟩).write b ⟨some h.fresh, z⟩,
      ⟨(ls v).first, (ls v).last, (ls v).len + 1⟩, e, ?_, ?_, fun m => ?_⟩
    · have hnth : nthCell h (ls v).first (pre.length + 1) = some i := by
        rw [nthCell_spec r.list]; simp
      rw [hnth]
      simp only [ObjHeap.insertBefore, alloc_addr, alloc_fresh, hloop, bind, Except.bind]
      rw [if_neg hfirst, deref_ok hca0]
      simp only
      rw [setNext_ok (c := ⟨none, x⟩) _ (by simp)]
      simp only
      rw [setNext_ok _ hca]
    · simp [r.len]
    · rw [ObjHeap.get_rep r', ← List.getElem?_map]
      congr 2
      simp [List.take_append, List.drop_append, ← List.map_take, ← List.map_drop,
          List.take_of_length_le, List.drop_eq_nil_of_le]

example := C48_insert_before_partial (α := Nat)
  [.edit 0 (.append 5), .edit 0 (.append 6), .edit 0 (.append 7)] (by simp [noSelf]) 0 2 9
  (by omega) (by simp [listSpecs, ListOp.spec, Edit.spec, Spec.put])

/-! ## C49 appending a list to itself -/

theorem appendLoop_self (f : α → α) : ∀ (fuel : Nat) (h : Heap α) (ret : ObjHeap.OL)
    (pre suf : List (Nat × α)) (a : Nat) (x : α), ObjHeap.Rep h ret (pre ++ (a, x) :: suf) →
      ObjHeap.appendLoop f fuel h (some a) ret = .error .diverges
  | 0, _, _, _, _, _, _, _ => rfl
  | fuel + 1, h, ret, pre, suf, a, x, r => by
    obtain ⟨n, hc, -⟩ := r.list.mid_cell
    obtain ⟨h1, ret1, e1, r1, -, -⟩ := ObjHeap.append_rep r (f x)
    rw [List.append_assoc, List.cons_append] at r1
    obtain ⟨n1, hc1, l1⟩ := r1.list.mid_cell
    simp only [ObjHeap.appendLoop, deref_ok hc, bind, Except.bind, e1, deref_ok hc1]
    cases hs : suf with
    | nil =>
      rw [hs] at l1 r1
      obtain ⟨rfl, -⟩ := l1.cons_inv
      exact appendLoop_self f fuel h1 ret1 (pre ++ [(a, x)]) [] h.fresh (f x) (by simpa using r1)
    | cons e es =>
      obtain ⟨b, y⟩ := e
      rw [hs] at l1 r1
      obtain ⟨rfl, -⟩ := l1.cons_inv
      exact appendLoop_self f fuel h1 ret1 (pre ++ [(a, x)]) (es ++ [(h.fresh, f x)]) b y
        (by simpa using r1)

/-- C49 is false: `comps_objlist_concat_in` of any non-empty list with itself never ends, no number
of steps is enough. -/
theorem C49_false [BEq α] [LawfulBEq α] (ops : List (ListOp α)) (hns : ∀ o ∈ ops, noSelf o) (i : Nat)
    (hne : (listSpecs (fun _ => []) ops).1 i ≠ []) :
    ∃ h ls, listRuns Heap.empty (fun _ => ObjHeap.create) ops =
        .ok (h, ls, (listSpecs (fun _ => []) ops).2) ∧
      ObjHeap.concatIn h (ls i) (ls i) = .error .diverges ∧
      ∀ fuel, ObjHeap.appendLoop id fuel h (ls i).first (ls i) = .error .diverges := by
  obtain ⟨h, ls, ass, e, g, m⟩ := lists_reach ops hns
  have mi : (ass i).map Prod.snd = (listSpecs (fun _ => []) ops).1 i := congrFun m i
  have r := g.rep i
  have key : ∀ fuel, ObjHeap.appendLoop id fuel h (ls i).first (ls i) = .error .diverges := by
    intro fuel
    rw [← mi] at hne
    cases has : ass i with
    | nil => simp [has] at hne
    | cons c cs =>
      obtain ⟨a, x⟩ := c
      rw [has] at r
      rw [r.list.cons_inv.1]
      exact appendLoop_self id fuel h (ls i) [] cs a x r
  exact ⟨h, ls, e, key _, key⟩

example := C49_false (α := Nat) [.edit 0 (.append 5)] (by simp [noSelf]) 0
  (by simp [listSpecs, ListOp.spec, Edit.spec, Spec.put])

/-- C49, part that holds: appending another list is concatenation and leaves that list alone.
Missing: the same list twice. -/
theorem C49_concat_in_partial [BEq α] [LawfulBEq α] (ops : List (ListOp α))
    (hns : ∀ o ∈ ops, noSelf o) (i j : Nat) (hij : i ≠ j) :
    ∃ h ls h' l', listRuns Heap.empty (fun _ => ObjHeap.create) ops =
        .ok (h, ls, (listSpecs (fun _ => []) ops).2) ∧
      ObjHeap.concatIn h (ls i) (ls j) = .ok (h', l') ∧
      (∀ k, ObjHeap.get h' l' k = .ok ((listSpecs (fun _ => []) ops).1 i ++
        (listSpecs (fun _ => []) ops).1 j)[k]?) ∧
      ∀ k, ObjHeap.get h' (ls j) k = .ok ((listSpecs (fun _ => []) ops).1 j)[k]? := by
  obtain ⟨h, ls, ass, e, g, m⟩ := lists_reach ops hns
  have mi : (ass i).map Prod.snd = (listSpecs (fun _ => []) ops).1 i := congrFun m i
  have mj : (ass j).map Prod.snd = (listSpecs (fun _ => []) ops).1 j := congrFun m j
  obtain ⟨h', l', cs, e', r', hcs, -, r2⟩ := ObjHeap.concatIn_rep (g.rep i) (g.rep j)
    (g.disj j i (Ne.symm hij))
  refine ⟨h, ls, h', l', e, e', fun k => ?_, fun k => ?_⟩
  · rw [ObjHeap.get_rep r', ← List.getElem?_map, List.map_append, hcs, mi, mj]
  · rw [ObjHeap.get_rep r2, ← List.getElem?_map, mj]

example := C49_concat_in_partial (α := Nat) [.edit 0 (.append 5), .edit 1 (.append 6)]
  (by simp [noSelf]) 0 1 (by omega)

end Comps.Props

section
open Comps.Props
#print axioms C12_false_prepend
#print axioms C12_false_insertAt
#print axioms C12_false_pop
#print axioms C12_sequence_partial
#print axioms C12_whole_list_partial
#print axioms C13_edits
#print axioms C14_false_end
#print axioms C14_false_step
#print axioms C14_slice_partial
#print axioms C14_inner_partial
#print axioms C14_iterators
#print axioms C15_cmp
#print axioms C47_false
#print axioms C48_false_first
#print axioms C48_false_second
#print axioms C48_insert_before_partial
#print axioms C49_false
#print axioms C49_concat_in_partial
end
