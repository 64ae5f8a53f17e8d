import Verif.Model.Heap

/-!
# `COMPS_ObjList` at pointer level

`/repo/libcomps/src/comps_objlist.c`.  The data of a cell is an object pointer (`α`, compared with
`==` where the code compares pointers).  Reference counting of the elements is left to
`Verif/Model/RefC.lean`.  Positions are natural numbers: the code uses 32 bit integers, so lists are
assumed shorter than 2^31.  Loops take fuel as in `Verif/Model/HSHeap.lean`.
-/

namespace Comps.ObjHeap
open Comps Heap
variable {α : Type}

/-- comps_objlist.h `COMPS_ObjList` without the object header. -/
structure OL where
  first : Option Nat
  last : Option Nat
  len : Nat
  deriving DecidableEq, Repr

/-- comps_objlist.c:34-39 `comps_objlist_create`. -/
def create : OL := ⟨none, none, 0⟩

/-- comps_objlist.c:143-154 `__comps_objlist_append`, 156-163 `comps_objlist_append(_x)`. -/
def append (h : Heap α) (l : OL) (x : α) : Res (Heap α × OL) :=
  let (h, it) := h.alloc ⟨none, x⟩
  if l.first = none then .ok (h, ⟨some it, some it, l.len + 1⟩) else do
    let h ← h.setNext l.last (some it)
    let c ← h.deref l.last
    .ok (h, ⟨l.first, c.next, l.len + 1⟩)

/-- comps_objlist.c:165-180 `comps_objlist_insert_after`; the second component is the result. -/
def insertAfter (h : Heap α) (l : OL) (it : Option Nat) (x : α) : Res (Heap α × OL × Int) :=
  match it with
  | none => .ok (h, l, -1)
  | some i => do
    let (h, new) := h.alloc ⟨none, x⟩
    let c ← h.deref (some i)
    let h ← h.setNext (some new) c.next
    let h ← h.setNext (some i) (some new)
    .ok (h, ⟨l.first, if some i = l.last then some new else l.last, l.len + 1⟩, 1)

/-- comps_objlist.c:190: the loop of `comps_objlist_insert_before`. -/
def insertBeforeLoop (h : Heap α) (it : Nat) : Nat → Option Nat → Res (Option Nat)
  | 0, _ => .error .diverges
  | fuel + 1, tmp => do
    let c ← h.deref tmp
    if c.next = some it then .ok tmp else insertBeforeLoop h it fuel c.next

/-- comps_objlist.c:182-203 `comps_objlist_insert_before`. -/
def insertBefore (h : Heap α) (l : OL) (it : Option Nat) (x : α) : Res (Heap α × OL × Int) :=
  match it with
  | none => .ok (h, l, -1)
  | some i => do
    let (h, new) := h.alloc ⟨none, x⟩
    let tmp ← insertBeforeLoop h i (h.fresh + 1) l.first
    if tmp = l.first then
      let h ← h.setNext (some new) l.first
      .ok (h, ⟨some new, if l.last = none then some new else l.last, l.len + 1⟩, 1)
    else
      let c ← h.deref tmp
      let h ← h.setNext (some new) c.next
      let h ← h.setNext tmp (some new)
      .ok (h, ⟨l.first, l.last, l.len + 1⟩, 1)

/-- comps_objlist.c:223-226: the loop of `__comps_objlist_insert_at`; the result is `oldit`. -/
def insertAtLoop (h : Heap α) (pos : Nat) :
    Nat → Nat → Option Nat → Option Nat → Res (Option Nat)
  | 0, _, _, _ => .error .diverges
  | fuel + 1, i, tmp, old =>
    if tmp = none ∨ i = pos then .ok old else do
      let c ← h.deref tmp
      insertAtLoop h pos fuel (i + 1) c.next tmp

/-- comps_objlist.c:205-248 `__comps_objlist_insert_at`, `comps_objlist_insert_at(_x)`. -/
def insertAt (h : Heap α) (l : OL) (pos : Nat) (x : α) : Res (Heap α × OL × Int) :=
  if pos > l.len then .ok (h, l, -1) else do
  let (h, new) := h.alloc ⟨none, x⟩
  if pos = 0 then
    let h ← h.setNext (some new) l.first
    .ok (h, ⟨some new, if l.last = none then some new else l.last, l.len + 1⟩, 1)
  else if pos = l.len then
    let h ← h.setNext (some new) none
    let h ← h.setNext l.last (some new)
    .ok (h, ⟨l.first, some new, l.len + 1⟩, 1)
  else
    let old ← insertAtLoop h pos (h.fresh + 1) 0 l.first none
    let c ← h.deref old
    let h ← h.setNext (some new) c.next
    let h ← h.setNext old (some new)
    .ok (h, ⟨l.first, l.last, l.len + 1⟩, 1)

/-- comps_objlist.c:255-259: the loop of `comps_objlist_remove_at`; the result is `(it, itprev)`. -/
def removeAtLoop (h : Heap α) (atpos : Nat) :
    Nat → Nat → Option Nat → Option Nat → Res (Option Nat × Option Nat)
  | 0, _, _, _ => .error .diverges
  | fuel + 1, pos, it, prev =>
    if it = none ∨ pos = atpos then .ok (it, prev) else do
      let c ← h.deref it
      removeAtLoop h atpos fuel (pos + 1) c.next it

/-- comps_objlist.c:262-270 and 284-291: taking out cell `it`. -/
def unlink (h : Heap α) (l : OL) (it prev : Option Nat) : Res (Heap α × OL × Int) :=
  match it with
  | none => .ok (h, l, 0)
  | some i => do
    let c ← h.deref (some i)
    let (h, first) ← match prev with
      | some p => do
        let h ← h.setNext (some p) c.next
        (.ok (h, l.first) : Res (Heap α × Option Nat))
      | none => .ok (h, c.next)
    let last := if some i = l.last then prev else l.last
    .ok (h.free i, ⟨first, last, l.len - 1⟩, 1)

/-- comps_objlist.c:250-271 `comps_objlist_remove_at`. -/
def removeAt (h : Heap α) (l : OL) (atpos : Nat) : Res (Heap α × OL × Int) := do
  let (it, prev) ← removeAtLoop h atpos (h.fresh + 1) 0 l.first none
  unlink h l it prev

/-- comps_objlist.c:277-280: the loop of `comps_objlist_remove`. -/
def removeLoop [BEq α] (h : Heap α) (x : α) :
    Nat → Option Nat → Option Nat → Res (Option Nat × Option Nat)
  | 0, _, _ => .error .diverges
  | fuel + 1, it, prev =>
    match it with
    | none => .ok (it, prev)
    | some i => do
      let c ← h.deref (some i)
      if c.data == x then .ok (it, prev) else removeLoop h x fuel c.next it

/-- comps_objlist.c:273-292 `comps_objlist_remove`. -/
def remove [BEq α] (h : Heap α) (l : OL) (x : α) : Res (Heap α × OL × Int) := do
  let (it, prev) ← removeLoop h x (h.fresh + 1) l.first none
  unlink h l it prev

/-- comps_objlist.c:298-300: the loop of `comps_objlist_index`. -/
def indexLoop [BEq α] (h : Heap α) (x : α) : Nat → Nat → Option Nat → Res Int
  | 0, _, _ => .error .diverges
  | fuel + 1, n, it =>
    match it with
    | none => .ok (-1)
    | some i => do
      let c ← h.deref (some i)
      if c.data == x then .ok (Int.ofNat n) else indexLoop h x fuel (n + 1) c.next

/-- comps_objlist.c:294-303 `comps_objlist_index`. -/
def index [BEq α] (h : Heap α) (l : OL) (x : α) : Res Int :=
  indexLoop h x (h.fresh + 1) 0 l.first

/-- comps_objlist.c:82-84, 97-99, 113-115, 337-339 and 440: walking to a position; the result is
`(it, pos)`. -/
def walkTo (h : Heap α) (atpos : Nat) : Nat → Nat → Option Nat → Res (Option Nat × Nat)
  | 0, _, _ => .error .diverges
  | fuel + 1, pos, it =>
    if it = none ∨ pos = atpos then .ok (it, pos) else do
      let c ← h.deref it
      walkTo h atpos fuel (pos + 1) c.next

/-- comps_objlist.c:77-105 `comps_objlist_get`, `comps_objlist_get_x` (they differ in the reference
count only). -/
def get (h : Heap α) (l : OL) (atpos : Nat) : Res (Option α) := do
  let (it, pos) ← walkTo h atpos (h.fresh + 1) 0 l.first
  if pos ≠ atpos then .ok none else
  match it with
  | none => .ok none
  | some i => do
    let c ← h.deref (some i)
    .ok (some c.data)

/-- comps_objlist.c:107-121 `comps_objlist_get_it`. -/
def getIt (h : Heap α) (l : OL) (atpos : Nat) : Res (Option Nat) := do
  let (it, pos) ← walkTo h atpos (h.fresh + 1) 0 l.first
  if pos + 1 ≠ atpos then .ok none else .ok it

/-- comps_objlist.c:432-446 `comps_objlist_set`. -/
def set (h : Heap α) (l : OL) (atpos : Nat) (x : α) : Res (Heap α × Int) := do
  let (it, _) ← walkTo h atpos (h.fresh + 1) 0 l.first
  match it with
  | none => .ok (h, -1)
  | some i => do
    let c ← h.deref (some i)
    .ok (h.write i ⟨c.next, x⟩, 0)

/-- comps_objlist.c:60-64: the loop of `comps_objlist_destroy` with `comps_objlist_walk` (124-130):
`it` is advanced before the cell behind it is freed. -/
def destroyLoop : Nat → Heap α → Option Nat → Res (Heap α)
  | 0, _, _ => .error .diverges
  | fuel + 1, h, it =>
    match it with
    | none => .ok h
    | some i => do
      let c ← h.deref (some i)
      destroyLoop fuel (h.free i) c.next

/-- comps_objlist.c:56-66 `comps_objlist_destroy`, 69-74 `comps_objlist_clear`. -/
def clear (h : Heap α) (l : OL) : Res (Heap α × OL) := do
  let h ← destroyLoop (h.fresh + 1) h l.first
  .ok (h, create)

/-- The copying loops comps_objlist.c:49-51, 400-402, 403-405, 411-413: append `f` of every element
from `it` on to `ret`.  (`f` is `comps_object_copy`, or the identity with a new reference.) -/
def appendLoop (f : α → α) : Nat → Heap α → Option Nat → OL → Res (Heap α × OL)
  | 0, _, _, _ => .error .diverges
  | fuel + 1, h, it, ret =>
    match it with
    | none => .ok (h, ret)
    | some i => do
      let c ← h.deref (some i)
      let (h, ret) ← append h ret (f c.data)
      let c ← h.deref (some i)
      appendLoop f fuel h c.next ret

/-- comps_objlist.c:41-52 `comps_objlist_copy`. -/
def copy (f : α → α) (h : Heap α) (l : OL) : Res (Heap α × OL) :=
  appendLoop f (h.fresh + 1) h l.first create

/-- comps_objlist.c:395-407 `comps_objlist_concat`. -/
def concat (h : Heap α) (l1 l2 : OL) : Res (Heap α × OL) := do
  let (h, ret) ← appendLoop id (h.fresh + 1) h l1.first create
  appendLoop id (h.fresh + 1) h l2.first ret

/-- comps_objlist.c:409-414 `comps_objlist_concat_in`.  If both arguments are the same list the loop
feeds itself; the fuel is larger than the length of the second list before the call, so running out
of it means that the loop never ends. -/
def concatIn (h : Heap α) (l1 l2 : OL) : Res (Heap α × OL) :=
  appendLoop id (h.fresh + 1) h l2.first l1

/-- comps_objlist.c:388-391: the loop of `comps_objlist_filter`; `k` is `list->len - i`. -/
def filterLoop (p : α → Bool) : Nat → Heap α → Option Nat → OL → Res (Heap α × OL)
  | 0, h, _, ret => .ok (h, ret)
  | k + 1, h, it, ret => do
    let c ← h.deref it
    let (h, ret) ← if p c.data then append h ret c.data else .ok (h, ret)
    let c ← h.deref it
    filterLoop p k h c.next ret

/-- comps_objlist.c:380-393 `comps_objlist_filter`. -/
def filter (p : α → Bool) (h : Heap α) (l : OL) : Res (Heap α × OL) :=
  filterLoop p l.len h l.first create

/-- comps_objlist.c:312-314: the loop of `comps_objlist_sublist_it`. -/
def sublistItLoop : Nat → Heap α → Option Nat → Option Nat → OL → Res (Heap α × OL)
  | 0, _, _, _, _ => .error .diverges
  | fuel + 1, h, it, fin, ret =>
    if it = fin then .ok (h, ret) else do
      let c ← h.deref it
      let (h, ret) ← append h ret c.data
      let c ← h.deref it
      sublistItLoop fuel h c.next fin ret

/-- comps_objlist.c:305-316 `comps_objlist_sublist_it`. -/
def sublistIt (h : Heap α) (start fin : Option Nat) : Res (Heap α × OL) :=
  sublistItLoop (h.fresh + 1) h start fin create

/-- comps_objlist.c:327-332: the loop of `comps_objlist_sublist_it_step`. -/
def sublistItStepLoop (step : Nat) : Nat → Heap α → Option Nat → Option Nat → Nat → OL →
    Res (Heap α × OL)
  | 0, _, _, _, _, _ => .error .diverges
  | fuel + 1, h, it, fin, stepc, ret => do
    let c ← h.deref it
    if c.next = fin then .ok (h, ret) else do
      let (h, ret, stepc) ← if step = stepc then do
          let (h, ret) ← append h ret c.data
          (.ok (h, ret, 0) : Res (Heap α × OL × Nat))
        else .ok (h, ret, stepc)
      let c ← h.deref it
      sublistItStepLoop step fuel h c.next fin (stepc + 1) ret

/-- comps_objlist.c:318-333 `comps_objlist_sublist_it_step`. -/
def sublistItStep (h : Heap α) (start fin : Option Nat) (step : Nat) : Res (Heap α × OL) :=
  sublistItStepLoop step (h.fresh + 1) h start fin step create

/-- comps_objlist.c:348-350: the second loop of `comps_objlist_sublist_indexed`. -/
def sublistIdxLoop (fin : Nat) : Nat → Heap α → Option Nat → Nat → OL → Res (Heap α × OL)
  | 0, _, _, _, _ => .error .diverges
  | fuel + 1, h, it, pos, ret => do
    let c ← h.deref it
    if c.next = none ∨ pos = fin then .ok (h, ret) else do
      let (h, ret) ← append h ret c.data
      let c ← h.deref it
      sublistIdxLoop fin fuel h c.next (pos + 1) ret

/-- comps_objlist.c:335-352 `comps_objlist_sublist_indexed`. -/
def sublistIdx (h : Heap α) (l : OL) (start fin : Nat) : Res (Heap α × OL) := do
  let (it, pos) ← walkTo h start (h.fresh + 1) 0 l.first
  match it with
  | none => .ok (h, create)
  | some i => sublistIdxLoop fin (h.fresh + 1) h (some i) pos create

/-- comps_objlist.c:371-376: the second loop of `comps_objlist_sublist_indexed_step`.  (The code
resets `step`, not `stepc`.) -/
def sublistIdxStepLoop (fin : Nat) : Nat → Heap α → Option Nat → Nat → Nat → Nat → OL →
    Res (Heap α × OL)
  | 0, _, _, _, _, _, _ => .error .diverges
  | fuel + 1, h, it, pos, stepc, step, ret => do
    let c ← h.deref it
    if c.next = none ∨ pos = fin then .ok (h, ret) else do
      let (h, ret, step) ← if stepc = step then do
          let (h, ret) ← append h ret c.data
          (.ok (h, ret, 0) : Res (Heap α × OL × Nat))
        else .ok (h, ret, step)
      let c ← h.deref it
      sublistIdxStepLoop fin fuel h c.next (pos + 1) (stepc + 1) step ret

/-- comps_objlist.c:354-378 `comps_objlist_sublist_indexed_step`. -/
def sublistIdxStep (h : Heap α) (l : OL) (start fin step : Nat) : Res (Heap α × OL) := do
  let (it, pos) ← walkTo h start (h.fresh + 1) 0 l.first
  match it with
  | none => .ok (h, create)
  | some i => sublistIdxStepLoop fin (h.fresh + 1) h (some i) pos 0 step create

/-- comps_objlist.c:422-429: the loop of `comps_objlist_cmp`. -/
def cmpLoop (cmpf : α → α → Bool) (h : Heap α) : Nat → Option Nat → Option Nat → Res Bool
  | 0, _, _ => .error .diverges
  | fuel + 1, it, it2 =>
    match it, it2 with
    | some a, some b => do
      let c1 ← h.deref (some a)
      let c2 ← h.deref (some b)
      if cmpf c1.data c2.data then cmpLoop cmpf h fuel c1.next c2.next else .ok false
    | none, none => .ok true
    | _, _ => .ok false

/-- comps_objlist.c:416-430 `comps_objlist_cmp` on two lists (neither NULL). -/
def cmp (cmpf : α → α → Bool) (h : Heap α) (l1 l2 : OL) : Res Bool :=
  cmpLoop cmpf h (h.fresh + 1) l1.first l2.first

end Comps.ObjHeap
