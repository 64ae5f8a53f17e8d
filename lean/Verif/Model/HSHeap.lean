import Verif.Model.Heap

/-!
# `COMPS_HSList` at pointer level

`/repo/libcomps/src/comps_hslist.c`.  `construct` is 0 (or the list has no constructor): the data
pointer is stored as given.  Every loop takes fuel; running out of fuel is the fault `diverges`.
A loop that only follows `next` visits a cell twice before it has made `h.fresh + 1` steps, if it
does not end, so with that much fuel the fault is exact.
-/

namespace Comps.HSHeap
open Comps Heap
variable {α : Type}

/-- comps_hslist.c:33-45 `comps_hslist_init`. -/
def init : Hdr := ⟨none, none⟩

/-- comps_hslist.c:47-67 `comps_hslist_append`. -/
def append (h : Heap α) (l : Hdr) (x : α) : Res (Heap α × Hdr) :=
  let (h, it) := h.alloc ⟨none, x⟩
  match l.last with
  | none => .ok (h, ⟨some it, some it⟩)
  | some t => do
    let h ← h.setNext (some t) (some it)
    let c ← h.deref (some t)
    .ok (h, ⟨l.first, c.next⟩)

/-- comps_hslist.c:69-90 `comps_hslist_insert_after`. -/
def insertAfter (h : Heap α) (l : Hdr) (item : Option Nat) (x : α) : Res (Heap α × Hdr) :=
  match item with
  | none => .ok (h, l)
  | some i => do
    let c ← h.deref (some i)
    let (h, it) := h.alloc ⟨c.next, x⟩
    let h ← h.setNext (some i) (some it)
    .ok (h, ⟨l.first, if some i = l.last then some it else l.last⟩)

/-- comps_hslist.c:106-108: the loop of `comps_hslist_insert_at`; the result is `(n, oldit)`. -/
def insertAtLoop (h : Heap α) (pos : Nat) :
    Nat → Nat → Option Nat → Option Nat → Res (Nat × Option Nat)
  | 0, _, _, _ => .error .diverges
  | fuel + 1, n, it, oldit =>
    if n = pos ∨ it = none then .ok (n, oldit) else do
      let c ← h.deref it
      insertAtLoop h pos fuel (n + 1) c.next it

/-- comps_hslist.c:91-123 `comps_hslist_insert_at` (position not negative; a negative position
never equals the counter and ends in the last branch).  The returned value is always 1. -/
def insertAt (h : Heap α) (l : Hdr) (pos : Nat) (x : α) : Res (Heap α × Hdr) := do
  let (h, newit) := h.alloc ⟨none, x⟩
  let (n, oldit) ← insertAtLoop h pos (h.fresh + 1) 0 l.first none
  if n = 0 ∧ pos = 0 then
    let h ← h.setNext (some newit) l.first
    .ok (h, ⟨some newit, if l.last = none then some newit else l.last⟩)
  else if n = pos then
    let c ← h.deref oldit
    let h ← h.setNext (some newit) c.next
    let h ← h.setNext oldit (some newit)
    .ok (h, l)
  else
    .ok (h.free newit, l)

/-- comps_hslist.c:125-141 `comps_hslist_prepend`. -/
def prepend (h : Heap α) (l : Hdr) (x : α) : Res (Heap α × Hdr) :=
  let (h, it) := h.alloc ⟨l.first, x⟩
  .ok (h, ⟨some it, l.last⟩)

/-- comps_hslist.c:143-158 `comps_hslist_shift`. -/
def shift (h : Heap α) (l : Hdr) : Res (Heap α × Hdr × Option α) :=
  match l.first with
  | none => .ok (h, l, none)
  | some a => do
    let c ← h.deref (some a)
    .ok (h.free a, ⟨c.next, if c.next = none then none else l.last⟩, some c.data)

/-- comps_hslist.c:167: the loop of `comps_hslist_pop`; the result is `(it, it2)`. -/
def popLoop (h : Heap α) (last : Option Nat) :
    Nat → Option Nat → Option Nat → Res (Option Nat × Option Nat)
  | 0, _, _ => .error .diverges
  | fuel + 1, it, it2 =>
    if it = last then .ok (it, it2) else do
      let c ← h.deref it
      popLoop h last fuel c.next it

/-- comps_hslist.c:160-179 `comps_hslist_pop`. -/
def pop (h : Heap α) (l : Hdr) : Res (Heap α × Hdr × Option α) :=
  match l.first with
  | none => .ok (h, l, none)
  | some a => do
    let (it, it2) ← popLoop h l.last (h.fresh + 1) (some a) none
    let (h, l) ← match it2 with
      | none => (.ok (h, ⟨none, none⟩) : Res (Heap α × Hdr))
      | some b => do
        let h ← h.setNext (some b) none
        .ok (h, ⟨l.first, some b⟩)
    let c ← h.deref it
    match it with
    | none => .error .nullDeref
    | some i => .ok (h.free i, l, some c.data)

/-- comps_hslist.c:210-212: the loop of `comps_hslist_remove`; the result is `(itx, itprev)`. -/
def removeLoop (h : Heap α) (it : Nat) :
    Nat → Option Nat → Option Nat → Res (Option Nat × Option Nat)
  | 0, _, _ => .error .diverges
  | fuel + 1, itx, itprev =>
    if itx = none ∨ itx = some it then .ok (itx, itprev) else do
      let c ← h.deref itx
      removeLoop h it fuel c.next itx

/-- comps_hslist.c:206-227 `comps_hslist_remove`.  The cell is unlinked, not freed. -/
def remove (h : Heap α) (l : Hdr) (it : Option Nat) : Res (Heap α × Hdr) :=
  match it with
  | none => .ok (h, l)
  | some i => do
    let (itx, itprev) ← removeLoop h i (h.fresh + 1) l.first none
    if itx ≠ some i then .ok (h, l) else
    match itprev with
    | none => do
      let c ← h.deref l.first
      .ok (h, ⟨c.next, if l.first = l.last then c.next else l.last⟩)
    | some p => do
      let c ← h.deref (some i)
      let h ← h.setNext (some p) c.next
      if some i = l.last then
        .ok (h, ⟨if l.first = l.last then some p else l.first, some p⟩)
      else .ok (h, l)

/-- comps_hslist.c:233: the loop of `comps_hslist_data_at`. -/
def dataAtLoop (h : Heap α) (index : Nat) : Nat → Nat → Option Nat → Res (Option Nat)
  | 0, _, _ => .error .diverges
  | fuel + 1, i, itx =>
    if itx = none ∨ index = i then .ok itx else do
      let c ← h.deref itx
      dataAtLoop h index fuel (i + 1) c.next

/-- comps_hslist.c:229-238 `comps_hslist_data_at`. -/
def dataAt (h : Heap α) (l : Hdr) (index : Nat) : Res (Option α) := do
  let itx ← dataAtLoop h index (h.fresh + 1) 0 l.first
  match itx with
  | none => .ok none
  | some a => do
    let c ← h.deref (some a)
    .ok (some c.data)

/-- comps_hslist.c:258-267: the loop of `comps_hslist_clear`: `it` runs one cell ahead of `oldit`,
which is freed.  (The order of frees is kept: `oldit` is freed while `it` is still allocated.) -/
def clearLoop : Nat → Heap α → Option Nat → Option Nat → Res (Heap α × Option Nat)
  | 0, _, _, _ => .error .diverges
  | fuel + 1, h, it, oldit =>
    match it with
    | none => .ok (h, oldit)
    | some _ => match oldit with
      | none => .error .nullDeref
      | some o => do
        let _ ← h.deref (some o)
        let h := h.free o
        let c ← h.deref it
        clearLoop fuel h c.next it

/-- comps_hslist.c:254-272 `comps_hslist_clear`, and the same loop in comps_hslist.c:185-204
`comps_hslist_destroy`.  The data destructor is not modelled. -/
def clear (h : Heap α) (l : Hdr) : Res (Heap α × Hdr) := do
  let it ← match l.first with
    | none => (.ok none : Res (Option Nat))
    | some a => do
      let c ← h.deref (some a)
      .ok c.next
  let (h, oldit) ← clearLoop (h.fresh + 1) h it l.first
  match oldit with
  | none => .ok (h, ⟨none, none⟩)
  | some o => do
    let _ ← h.deref (some o)
    .ok (h.free o, ⟨none, none⟩)

/-- comps_hslist.c:247-249: the loop of `comps_hslist_clone`.  `f` is the data cloner; source and
clone share the heap. -/
def cloneLoop (f : α → α) : Nat → Heap α → Option Nat → Hdr → Res (Heap α × Hdr)
  | 0, _, _, _ => .error .diverges
  | fuel + 1, h, it, ret =>
    match it with
    | none => .ok (h, ret)
    | some a => do
      let c ← h.deref (some a)
      let (h, ret) ← append h ret (f c.data)
      let c ← h.deref (some a)
      cloneLoop f fuel h c.next ret

/-- comps_hslist.c:240-252 `comps_hslist_clone`. -/
def clone (f : α → α) (h : Heap α) (l : Hdr) : Res (Heap α × Hdr) :=
  cloneLoop f (h.fresh + 1) h l.first init

/-- comps_hslist.c:277-284: the loop of `comps_hslist_values_equal`. -/
def valuesEqualLoop (cmpf : α → α → Bool) (h : Heap α) :
    Nat → Option Nat → Option Nat → Res Bool
  | 0, _, _ => .error .diverges
  | fuel + 1, it, it2 =>
    match it, it2 with
    | some a, some b => do
      let c1 ← h.deref (some a)
      let c2 ← h.deref (some b)
      if cmpf c1.data c2.data then valuesEqualLoop cmpf h fuel c1.next c2.next
      else .ok false
    | none, none => .ok true
    | _, _ => .ok false

/-- comps_hslist.c:274-285 `comps_hslist_values_equal`. -/
def valuesEqual (cmpf : α → α → Bool) (h : Heap α) (l1 l2 : Hdr) : Res Bool :=
  valuesEqualLoop cmpf h (h.fresh + 1) l1.first l2.first

end Comps.HSHeap
