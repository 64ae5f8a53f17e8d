import Verif.Spec.ObjWalk
import Verif.Props.Lists

/-!
# Properties of walks through lists (C158, C159)
-/

namespace Comps.Props
open Comps Comps.Spec
variable {α : Type}

theorem walked_list {h : Heap α} {p : Option Nat} {as : List (Nat × α)} (hl : IsList h p as) (fuel : Nat)
    (hf : as.length < fuel) : walked h fuel p = .ok (as.map Prod.snd) := by
  induction as generalizing p fuel with
  | nil =>
    have : p = none := hl.seg
    subst this
    cases fuel with
    | zero => simp at hf
    | succ n => rfl
  | cons e es ih =>
    obtain ⟨a, x⟩ := e
    obtain ⟨rfl, n, hc, hr, -⟩ := hl.cons_inv
    cases fuel with
    | zero => simp at hf
    | succ m =>
      simp only [walked, ObjHeap.walk, deref_ok hc, bind, Except.bind]
      rw [ih hr m (by simpa using hf)]
      rfl

theorem drop_list {h : Heap α} {p : Option Nat} {as : List (Nat × α)} (hl : IsList h p as) (i : Nat) :
    IsList h (nthCell h p i) (as.drop i) := by
  induction as generalizing p i with
  | nil =>
    have : p = none := hl.seg
    subst this
    cases i <;> exact IsList.nil
  | cons e es ih =>
    cases i with
    | zero => exact hl
    | succ i =>
      obtain ⟨a, x⟩ := e
      obtain ⟨rfl, n, hc, hr, -⟩ := hl.cons_inv
      simpa [nthCell, hc] using ih hr i

/-- **C158.**  After every history of edits of any number of lists, a walk from any position of a list
gives the objects of the list from there on, in order, and ends, after one call more than there are objects;
a walk from NULL ends at once. -/
theorem C158_walk [BEq α] [LawfulBEq α] (ops : List (ListOp α)) (hns : ∀ o ∈ ops, noSelf o) (v i : Nat) :
    ∃ h ls, listRuns Heap.empty (fun _ => ObjHeap.create) ops =
        .ok (h, ls, (listSpecs (fun _ => []) ops).2) ∧
      (∀ n, (((listSpecs (fun _ => []) ops).1 v).drop i).length < n →
        walked h n (nthCell h (ls v).first i) = .ok (((listSpecs (fun _ => []) ops).1 v).drop i)) ∧
      walked h 1 none = .ok [] := by
  obtain ⟨h, ls, ass, e, g, m⟩ := lists_reach ops hns
  have mi : (ass v).map Prod.snd = (listSpecs (fun _ => []) ops).1 v := congrFun m v
  refine ⟨h, ls, e, fun n hn => ?_, rfl⟩
  rw [← mi] at hn ⊢
  rw [← List.map_drop] at hn ⊢
  exact walked_list (drop_list (g.rep v).list i) n (by simpa using hn)

example : ∃ h ls, listRuns (α := Nat) Heap.empty (fun _ => ObjHeap.create)
    [.edit 0 (.append 5), .edit 1 (.append 9), .edit 0 (.append 6), .edit 0 (.insertAt 0 4)] =
      .ok (h, ls, [1, 1, 1, 1]) ∧
    walked h 4 (ls 0).first = .ok [4, 5, 6] := by
  obtain ⟨h, ls, e, hw, -⟩ := C158_walk (α := Nat)
    [.edit 0 (.append 5), .edit 1 (.append 9), .edit 0 (.append 6), .edit 0 (.insertAt 0 4)]
    (by simp [noSelf]) 0 0
  exact ⟨h, ls, e, hw 4 (by decide)⟩

/-- What one call of `comps_objlist_walk_r` does in a list. -/
theorem walkR_list {h : Heap α} {a : Nat} {x : α} {es : List (Nat × α)} {p : Option Nat}
    (hl : IsList h p ((a, x) :: es)) (fin : Option Nat) :
    ObjHeap.walkR h p fin = .ok (if p = fin then none else es.head?.map Prod.snd) := by
  obtain ⟨rfl, n, hc, hr, -⟩ := hl.cons_inv
  simp only [ObjHeap.walkR, deref_ok hc, bind, Except.bind]
  cases es with
  | nil =>
    have : n = none := hr.seg
    subst this
    simp
  | cons e es =>
    obtain ⟨b, y⟩ := e
    obtain ⟨rfl, m, hc', -, -⟩ := hr.cons_inv
    simp only [deref_ok hc', List.head?_cons, Option.map_some]
    split <;> rfl

theorem walkedR_const {h : Heap α} {p fin : Option Nat} {r : Option α} (hr : ObjHeap.walkR h p fin = .ok r) :
    (r = none → ∀ n, walkedR h (n + 1) p fin = .ok []) ∧
    (r ≠ none → ∀ n, walkedR h n p fin = .error .diverges) := by
  constructor
  · rintro rfl n
    simp only [walkedR, hr, bind, Except.bind]
  · intro hn n
    induction n with
    | zero => rfl
    | succ n ih =>
      cases r with
      | none => exact (hn rfl).elim
      | some x => simp only [walkedR, hr, bind, Except.bind, ih]

/-- **C159, partial.**  A call of `comps_objlist_walk_r` with a position of a list gives the object after
it, unless there is none or the position is the end given; a walk from the end, and a walk from the last
position, has no objects.
Missing: every other walk, which does not end (`C159_false`). -/
theorem C159_partial [BEq α] [LawfulBEq α] (ops : List (ListOp α)) (hns : ∀ o ∈ ops, noSelf o)
    (v i j : Nat) (hi : i < ((listSpecs (fun _ => []) ops).1 v).length) :
    ∃ h ls, listRuns Heap.empty (fun _ => ObjHeap.create) ops =
        .ok (h, ls, (listSpecs (fun _ => []) ops).2) ∧
      ObjHeap.walkR h (nthCell h (ls v).first i) (nthCell h (ls v).first j) =
        .ok (if i = j then none else ((listSpecs (fun _ => []) ops).1 v)[i + 1]?) ∧
      (i = j ∨ i + 1 = ((listSpecs (fun _ => []) ops).1 v).length → ∀ n,
        walkedR h (n + 1) (nthCell h (ls v).first i) (nthCell h (ls v).first j) = .ok []) := by
  obtain ⟨h, ls, ass, e, g, m⟩ := lists_reach ops hns
  have mi : (ass v).map Prod.snd = (listSpecs (fun _ => []) ops).1 v := congrFun m v
  have hl := (g.rep v).list
  rw [← mi, List.length_map] at hi
  have hd := drop_list hl i
  rw [List.drop_eq_getElem_cons hi] at hd
  have hr := walkR_list hd (nthCell h (ls v).first j)
  have hij : nthCell h (ls v).first i = nthCell h (ls v).first j ↔ i = j := by
    rw [nthCell_spec hl, nthCell_spec hl]
    refine ⟨fun hh => ?_, fun hh => by rw [hh]⟩
    rw [← List.getElem?_map, ← List.getElem?_map] at hh
    exact (List.getElem?_inj (by simpa using hi) hl.nodup).1 hh
  have hr' : ObjHeap.walkR h (nthCell h (ls v).first i) (nthCell h (ls v).first j) =
      .ok (if i = j then none else ((listSpecs (fun _ => []) ops).1 v)[i + 1]?) := by
    rw [hr, ← mi, List.head?_drop, List.getElem?_map]
    simp only [hij]
  refine ⟨h, ls, e, hr', fun hc n => (walkedR_const hr').1 ?_ n⟩
  rcases hc with hc | hc
  · rw [if_pos hc]
  · rw [hc, List.getElem?_eq_none (Nat.le_refl _)]
    split <;> rfl

example := C159_partial (α := Nat) [.edit 0 (.append 5), .edit 0 (.append 6)] (by simp [noSelf]) 0 1 1
  (by decide)

/-- C159 is false: a walk from any position but the last one of a list, to an end that is another
position or NULL, does not end; every call gives the second object. -/
theorem C159_false [BEq α] [LawfulBEq α] (ops : List (ListOp α)) (hns : ∀ o ∈ ops, noSelf o)
    (v i j : Nat) (hi : i + 1 < ((listSpecs (fun _ => []) ops).1 v).length) (hij : i ≠ j) :
    ∃ h ls, listRuns Heap.empty (fun _ => ObjHeap.create) ops =
        .ok (h, ls, (listSpecs (fun _ => []) ops).2) ∧
      ∀ n, walkedR h n (nthCell h (ls v).first i) (nthCell h (ls v).first j) = .error .diverges := by
  obtain ⟨h, ls, e, h1, -⟩ := C159_partial ops hns v i j (by omega)
  refine ⟨h, ls, e, (walkedR_const h1).2 ?_⟩
  rw [if_neg hij, List.getElem?_eq_getElem hi]
  simp

example := C159_false (α := Nat) [.edit 0 (.append 5), .edit 0 (.append 6), .edit 0 (.append 7)]
  (by simp [noSelf]) 0 0 2 (by decide) (by decide)

end Comps.Props

section
open Comps.Props
#print axioms C158_walk
#print axioms C159_partial
#print axioms C159_false
end
