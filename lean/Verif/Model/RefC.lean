import Verif.Model.Basic

/-!
# Reference counting

Objects live in numbered slots.  A slot holds the reference count and the references the object
owns (the elements of a list, the values of a dictionary, the members of a group ...), or nothing
once the object was freed; slots are never reused, so an access to an empty slot is an access to
freed memory.
-/

namespace Comps.RefC

/-- The part of a `COMPS_Object` (comps_obj.h:86-87, 124-127) and its `COMPS_RefC` that matters
for lifetime: the counter (`comps_refc_create`, comps_mm.c:21-32, starts it at 0) and the
references the destructor of the object gives up, in the order it does so.
Simplification: the owned references stand for whichever fields hold them. -/
structure Obj where
  /-- `refc->ref_count` -/
  rc : Nat
  /-- the objects this object owns a reference to -/
  owned : List Nat
  deriving DecidableEq, Repr

/-- Memory: `none` is a freed object (comps_obj.c:18-26 frees it). -/
abbrev Heap := List (Option Obj)

/-- Read an object through its pointer (any `->` on a `COMPS_Object*`, e.g. comps_obj.c:19). -/
def load (h : Heap) (o : Nat) : Res Obj :=
  match h[o]? with
  | some (some ob) => .ok ob
  | _ => .error .useAfterFree

/-- `comps_object_create`, comps_obj.c:7-16: a new object with count 0.
Simplification: the allocation succeeds. -/
def create (h : Heap) : Heap × Nat := (h ++ [some ⟨0, []⟩], h.length)

/-- `comps_object_incref`, comps_obj.c:74-78, with `comps_refc_incref`, comps_mm.c:51-54.
Simplification: the counter does not wrap around. -/
def incref (h : Heap) (o : Nat) : Res Heap := do
  let ob ← load h o
  .ok (h.set o (some { ob with rc := ob.rc + 1 }))

/-- `comps_object_destroy`, comps_obj.c:18-26, with `comps_refc_destroy`, comps_mm.c:34-41, applied
in turn to every object of the list `todo`.  An object whose count is zero is freed; its
destructor releases the owned references (e.g. `comps_objlist_destroy`, comps_objlist.c:55-64)
before the next object of `todo` is released.  `log` records the destructors run.
Simplification: the object is taken out of memory before its destructor releases what it owns; in
between C would still let the destructor read it. `fuel` bounds the number of calls. -/
def destroyAll : Nat → Heap → List Nat → List Nat → Res (Heap × List Nat)
  | _, h, log, [] => .ok (h, log)
  | 0, _, _, _ :: _ => .error .diverges
  | fuel + 1, h, log, o :: todo =>
    match load h o with
    | .error e => .error e
    | .ok ob =>
      if ob.rc = 0 then destroyAll fuel (h.set o none) (log ++ [o]) (ob.owned ++ todo)
      else destroyAll fuel (h.set o (some { ob with rc := ob.rc - 1 })) log todo

/-- The references an object still in memory owns. -/
def ownedOf : Option Obj → List Nat
  | some ob => ob.owned
  | none => []

/-- All owned references held by objects in memory; used as a bound for the number of calls of
`comps_object_destroy` (comps_obj.c:18-26). -/
def edges (h : Heap) : List Nat := h.flatMap ownedOf

/-- `comps_object_destroy(o)`, comps_obj.c:18-26. -/
def destroy (h : Heap) (log : List Nat) (o : Nat) : Res (Heap × List Nat) :=
  destroyAll ((edges h).length + 1) h log [o]

/-- `comps_objlist_append_x`, comps_objlist.c:156-159: the reference of the caller moves into the
list. -/
def appendX (h : Heap) (l o : Nat) : Res Heap := do
  let ob ← load h l
  .ok (h.set l (some { ob with owned := ob.owned ++ [o] }))

/-- `comps_objlist_append`, comps_objlist.c:160-163: `comps_objlist_it_create` retains the
object first. -/
def append (h : Heap) (l o : Nat) : Res Heap := do
  appendX (← incref h o) l o

/-- `comps_objlist_remove_at`, comps_objlist.c:250-271: unlink, then release the element. -/
def removeAt (h : Heap) (log : List Nat) (l i : Nat) : Res (Heap × List Nat) := do
  let ob ← load h l
  match ob.owned[i]? with
  | none => .ok (h, log)
  | some o => destroy (h.set l (some { ob with owned := ob.owned.eraseIdx i })) log o

/-- `comps_objlist_get`, comps_objlist.c:77-90: retains the element and returns it. -/
def get (h : Heap) (l i : Nat) : Res (Heap × Option Nat) := do
  let ob ← load h l
  match ob.owned[i]? with
  | none => .ok (h, none)
  | some o => .ok (← incref h o, some o)

/-- `comps_objlist_get_x`, comps_objlist.c:92-105: returns the element without retaining it. -/
def getX (h : Heap) (l i : Nat) : Res (Option Nat) := do
  let ob ← load h l
  .ok ob.owned[i]?

/-- `comps_objlist_set`, comps_objlist.c:432-446: the old element is released **before** the new
one is retained.  `COMPS_OBJECT_REPLACE` (comps_obj.h:75-77), used by every property setter, has
the same order.  Simplification: while the old element is being released the list still holds the
pointer to it; the model takes it out for that time and puts the new one back in its place. -/
def setAt (h : Heap) (log : List Nat) (l i o : Nat) : Res (Heap × List Nat) := do
  let ob ← load h l
  match ob.owned[i]? with
  | none => .ok (h, log)
  | some old =>
    let (h, log) ← destroy (h.set l (some { ob with owned := ob.owned.eraseIdx i })) log old
    let h ← incref h o
    let ob ← load h l
    .ok (h.set l (some { ob with owned := ob.owned.take i ++ o :: ob.owned.drop i }), log)

/-- `comps_objlist_clear`, comps_objlist.c:68-73: releases all elements, then empties the list.
Simplification: as in `setAt`, the list is emptied first. -/
def clear (h : Heap) (log : List Nat) (l : Nat) : Res (Heap × List Nat) := do
  let ob ← load h l
  destroyAll ((edges h).length + 1) (h.set l (some { ob with owned := [] })) log ob.owned

/-- The loop of `comps_objlist_concat_in`, comps_objlist.c:409-414, and of
`comps_objlist_concat` (395-407): append (and retain) every element of another list. -/
def appendAll (h : Heap) (l : Nat) : List Nat → Res Heap
  | [] => .ok h
  | o :: os => do appendAll (← append h l o) l os

/-- `comps_objlist_concat_in`, comps_objlist.c:409-414, for two different lists (a list appended
to itself never ends: see the pointer-level model). -/
def concatIn (h : Heap) (l l2 : Nat) : Res Heap := do
  let ob ← load h l2
  appendAll h l ob.owned

/-- `comps_objlist_concat`, comps_objlist.c:395-407: a new list. -/
def concat (h : Heap) (l1 l2 : Nat) : Res (Heap × Nat) := do
  let (h, r) := create h
  let h ← concatIn h r l1
  let h ← concatIn h r l2
  .ok (h, r)

end Comps.RefC
