import Verif.Model.Basic

/-!
# Heap of list cells

Cells of `COMPS_HSList` (comps_hslist.h:22-29) and `COMPS_ObjList` (comps_objlist.h) are pairs of a
data pointer and a `next` pointer.  Addresses are natural numbers.

Simplification: `malloc` never fails and never hands out an address used before, so every access
to a freed cell is seen as a fault.
-/

namespace Comps

/-- comps_hslist.h:22-29 `COMPS_HSListItem`, comps_objlist.h `COMPS_ObjListIt`. -/
structure Cell (α : Type) where
  next : Option Nat
  data : α
  deriving DecidableEq, Repr

/-- All cells ever allocated; `none` is freed or never allocated. -/
structure Heap (α : Type) where
  cells : Nat → Option (Cell α)
  fresh : Nat

/-- `first` and `last` of a list header; NULL is `none`. -/
structure Hdr where
  first : Option Nat
  last : Option Nat
  deriving DecidableEq, Repr

namespace Heap
variable {α : Type}

/-- The heap before any call. -/
def empty : Heap α := ⟨fun _ => none, 0⟩

/-- Reading `*p`. -/
def deref (h : Heap α) : Option Nat → Res (Cell α)
  | none => .error .nullDeref
  | some a => match h.cells a with
    | none => .error .useAfterFree
    | some c => .ok c

/-- Writing `*a` (only called after a successful read of the same cell or on a new cell). -/
def write (h : Heap α) (a : Nat) (c : Cell α) : Heap α :=
  ⟨fun b => if b = a then some c else h.cells b, h.fresh⟩

/-- `malloc` of a cell, filled with `c`. -/
def alloc (h : Heap α) (c : Cell α) : Heap α × Nat :=
  (⟨fun b => if b = h.fresh then some c else h.cells b, h.fresh + 1⟩, h.fresh)

/-- `free` of a cell. -/
def free (h : Heap α) (a : Nat) : Heap α :=
  ⟨fun b => if b = a then none else h.cells b, h.fresh⟩

/-- `p->next = q`. -/
def setNext (h : Heap α) (p : Option Nat) (q : Option Nat) : Res (Heap α) :=
  match p with
  | none => .error .nullDeref
  | some a => match h.cells a with
    | none => .error .useAfterFree
    | some c => .ok (h.write a ⟨q, c.data⟩)

end Heap
end Comps
