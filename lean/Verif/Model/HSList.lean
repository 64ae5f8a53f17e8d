import Verif.Model.Basic

/-!
# `COMPS_HSList` at list level

`/repo/libcomps/src/comps_hslist.c`.  A list header has two pointers, `first` and `last`
(comps_hslist.h).  At this level the cells reachable from `first` are `items`, and `tailSet`
says whether `last` is the last of these cells (`true`) or is NULL (`false`).

Simplification: `last` may also point to an interior cell after `comps_hslist_insert_at`;
the dictionaries never use that function on a list they later append to, so this state is
left to the pointer-level model in `Verif/Model/HSHeap.lean`.
-/

namespace Comps

/-- comps_hslist.h: `first` (the cells reachable from it) and `last` (set or NULL). -/
structure HSList (α : Type) where
  items : List α
  tailSet : Bool
  deriving DecidableEq, Repr

namespace HSList
variable {α : Type}

/-- comps_hslist.c:33-45 `comps_hslist_init`: both pointers NULL. -/
def empty : HSList α := ⟨[], false⟩

/-- comps_hslist.c:47-67 `comps_hslist_append` (construct = 0).  With `last == NULL` both
`first` and `last` become the new cell, so cells already in the list are dropped. -/
def append (l : HSList α) (x : α) : HSList α :=
  if l.tailSet then ⟨l.items ++ [x], true⟩ else ⟨[x], true⟩

/-- comps_hslist.c:125-141 `comps_hslist_prepend`: `last` is not touched. -/
def prepend (l : HSList α) (x : α) : HSList α := ⟨x :: l.items, l.tailSet⟩

/-- comps_hslist.c:69-90 `comps_hslist_insert_after`, the cell given by its position `i`.
`last` moves to the new cell if it was the cell `i`; otherwise it is not touched. Either way
`tailSet` keeps its value. -/
def insertAfter (l : HSList α) (i : Nat) (x : α) : HSList α :=
  ⟨l.items.take (i + 1) ++ x :: l.items.drop (i + 1), l.tailSet⟩

/-- comps_hslist.c:206-227 `comps_hslist_remove`, the cell given by its position `i`.
`last` becomes NULL exactly when the only cell is removed and `last` was that cell. -/
def removeAt (l : HSList α) (i : Nat) : HSList α :=
  let rest := l.items.eraseIdx i
  ⟨rest, l.tailSet && !rest.isEmpty⟩

/-- Assignment through `it->data` (no C function; used as `rtdata->... = ...` in
comps_objradix.c:381-441). -/
def setAt (l : HSList α) (i : Nat) (x : α) : HSList α := ⟨l.items.set i x, l.tailSet⟩

/-- A list filled by `comps_hslist_append` only, as the `to_clone`/`new_subnodes` loops of
comps_objradix.c:107-141 do. -/
def ofAppends (xs : List α) : HSList α := xs.foldl append empty

end HSList
end Comps
