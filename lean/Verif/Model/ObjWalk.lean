import Verif.Model.ObjHeap

/-!
# Walking through an object list

`/repo/libcomps/src/comps_objlist.c`:124-141.  An iterator is the address of a cell, NULL is `none`.
-/

namespace Comps.ObjHeap
variable {α : Type}

/-- comps_objlist.c:124-130 `comps_objlist_walk` (and 4-6 `comps_objlist_it_next`), `walker` and `result`
not NULL: what is stored in `*result` and `*walker` if the result is 1; `none` if it is 0. -/
def walk (h : Heap α) (walker : Option Nat) : Res (Option (α × Option Nat)) :=
  match walker with
  | none => .ok none
  | some i => do
    let c ← h.deref (some i)
    .ok (some (c.data, c.next))

/-- comps_objlist.c:132-141 `comps_objlist_walk_r`: what is stored in `*result` if the result is 1;
`none` if it is 0.  `start` is passed by value (138 is without effect for the caller). -/
def walkR (h : Heap α) (start mantinel : Option Nat) : Res (Option α) := do
  let c ← h.deref start
  match c.next with
  | none => .ok none
  | some n =>
    if start = mantinel then .ok none else do
      let d ← h.deref (some n)
      .ok (some d.data)

end Comps.ObjHeap
