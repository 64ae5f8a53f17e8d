import Verif.Model.ObjWalk

/-!
# Loops of callers that walk through a list

The two loops of the documentation in comps_objlist.h:64-88, written with the calls only.
-/

namespace Comps.Spec
variable {α : Type}

/-- `while (comps_objlist_walk(&it, &obj)) …`: the objects in the order of the calls.  The first argument
bounds the number of calls. -/
def walked (h : Heap α) : Nat → Option Nat → Res (List α)
  | 0, _ => .error .diverges
  | fuel + 1, it => do
    match ← ObjHeap.walk h it with
    | none => .ok []
    | some (x, it) => do
      let xs ← walked h fuel it
      .ok (x :: xs)

/-- `while (comps_objlist_walk_r(it, end, &obj)) …`. -/
def walkedR (h : Heap α) : Nat → Option Nat → Option Nat → Res (List α)
  | 0, _, _ => .error .diverges
  | fuel + 1, it, fin => do
    match ← ObjHeap.walkR h it fin with
    | none => .ok []
    | some x => do
      let xs ← walkedR h fuel it fin
      .ok (x :: xs)

end Comps.Spec
