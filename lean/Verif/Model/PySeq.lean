import Verif.Model.ObjHeap
import Verif.Model.ValidateDoc

/-!
# Python sequences

`/repo/libcomps/src/python/src/pycomps_sequence.c`: the lists of groups, categories, environments,
packages and group ids as Python sees them.  A sequence is a `COMPS_ObjList` on the heap of
`Verif/Model/ObjHeap.lean`; the data of a cell is `comps_obj`, `none` being NULL (a slice deletion
stores NULL).  `α` is the type of object addresses.

Left out: reference counts, the texts of exceptions, failures of the Python runtime itself.  Numbers
given by Python are assumed to fit in a `Py_ssize_t` (`PyLong_AsLong` reports others), and `int` has
32 bits.
-/

namespace Comps.PySeq
open Comps Comps.Obj Heap ObjHeap
variable {α : Type}

/-- The exceptions set by the code (`PyErr_SetString`, `PyErr_Format`). -/
inductive Exc where
  | indexError
  | keyError
  | typeError
  | valueError
  deriving DecidableEq, Repr

/-- What a call answers: a value or an exception. -/
abbrev Ans (β : Type) := Except Exc β

/-- Conversion to `int` (pycomps_sequence.c:35-39, 120, 177). -/
def toInt (n : Int) : Int := (n + 2 ^ 31) % 2 ^ 32 - 2 ^ 31

/-- Conversion to `unsigned int`, the type of positions (comps_objlist.h). -/
def toUnsigned (n : Int) : Nat := (n % 2 ^ 32).toNat

/-- What a Python program passes as an item. -/
inductive Item (α : Type) where
  /-- an object of the type the list is made for -/
  | obj (a : α)
  /-- a string -/
  | str (s : Bytes)
  /-- anything else -/
  | other

/-- pycomps_types.h:27-36 `PyCOMPS_ItemInfo` with the methods of the type. -/
structure Kind (α : Type) where
  /-- the object made from a string (`comps_gids_str_in`, pycomps_gids.c:250-253), if strings are
  accepted -/
  fromStr : Bytes → Option α
  /-- what `list_unique_id_check` reads of an object (pycomps_sequence.c:143-151): `properties["id"]`
  found at `props_offset` -/
  ident : α → Res (Option CStr)
  /-- what `list_getitem_byid` compares (pycomps_sequence.c:70-77) -/
  key : α → Res (Option CStr)
  /-- `pre_checker`: does the object pass -/
  passes : α → Res Bool
  /-- the type has `PyCOMPSSeq_mapping_extra` (pycomps_sequence.c:619-623) -/
  extra : Bool
  /-- the method `append` is `PyCOMPSSeq_append_unique` -/
  appendUnique : Bool

/-- pycomps_sequence.c:91-106 `list_setitem_convert`. -/
def convert (k : Kind α) : Item α → Option α
  | .obj a => some a
  | .str s => k.fromStr s
  | .other => none

/-- pycomps_sequence.c:28-30 `PyCOMPSSeq_len`. -/
def len (l : OL) : Nat := l.len

/-- pycomps_sequence.c:32-48 `list_getitem`. -/
def getItem (h : Heap (Option α)) (l : OL) (index : Int) : Res (Ans α) := do
  let i := if index < 0 then toInt (l.len + index) else toInt index
  match ← ObjHeap.get h l (toUnsigned i) with
  | some (some a) => .ok (.ok a)
  | _ => .ok (.error .indexError)

/-- `GET_FROM(it->comps_obj, props_offset)` and the id in it; `comps_obj` may be NULL. -/
def identOf (k : Kind α) : Option α → Res (Option CStr)
  | none => .error .nullDeref
  | some a => k.ident a

/-- pycomps_sequence.c:66-82: the loop of `list_getitem_byid`. -/
def byIdLoop (k : Kind α) (h : Heap (Option α)) (id : Bytes) : Nat → Option Nat → Res (Ans α)
  | 0, _ => .error .diverges
  | fuel + 1, it =>
    match it with
    | none => .ok (.error .keyError)
    | some i => do
      let c ← h.deref (some i)
      match c.data with
      | none => .error .nullDeref
      | some a => do
        let oid ← k.key a
        if objCmp CStr.cmp oid (some ⟨some id⟩) then .ok (.ok a)
        else byIdLoop k h id fuel c.next

/-- pycomps_sequence.c:50-89 `list_getitem_byid`. -/
def getById (k : Kind α) (h : Heap (Option α)) (l : OL) (id : Bytes) : Res (Ans α) :=
  byIdLoop k h id (h.fresh + 1) l.first

/-- pycomps_sequence.c:146-160: the loop of `list_unique_id_check`; `true` when no member has the
id `id1`. -/
def uniqueLoop (k : Kind α) (h : Heap (Option α)) (id1 : Option CStr) :
    Nat → Option Nat → Res Bool
  | 0, _ => .error .diverges
  | fuel + 1, it =>
    match it with
    | none => .ok true
    | some i => do
      let c ← h.deref (some i)
      let id2 ← identOf k c.data
      if objCmp CStr.cmp id1 id2 then .ok false else uniqueLoop k h id1 fuel c.next

/-- pycomps_sequence.c:138-162 `list_unique_id_check`; `true` is the return value 0. -/
def uniqueCheck (k : Kind α) (h : Heap (Option α)) (l : OL) (x : Option α) : Res Bool := do
  let id1 ← identOf k x
  uniqueLoop k h id1 (h.fresh + 1) l.first

/-- pycomps_sequence.c:108-136 `list_setitem` and 164-192 `list_setitem_id_unique` with an item:
`seq[index] = item`.  (The second one has no `pre_checker`.) -/
def setItem (k : Kind α) (h : Heap (Option α)) (l : OL) (index : Int) (item : Item α) :
    Res (Heap (Option α) × OL × Ans Unit) :=
  match convert k item with
  | none => .ok (h, l, .error .typeError)
  | some x =>
    if toInt index > toInt (l.len - 1) then .ok (h, l, .error .indexError)
    else if k.extra then do
      if ← uniqueCheck k h l (some x) then do
        let (h, _) ← ObjHeap.set h l (toUnsigned index) (some x)
        .ok (h, l, .ok ())
      else .ok (h, l, .error .keyError)
    else do
      if ← k.passes x then do
        let (h, _) ← ObjHeap.set h l (toUnsigned index) (some x)
        .ok (h, l, .ok ())
      else .ok (h, l, .error .valueError)

/-- pycomps_sequence.c:108-136, 164-192 without an item: `del seq[index]`. -/
def delItem (h : Heap (Option α)) (l : OL) (index : Int) :
    Res (Heap (Option α) × OL × Ans Unit) :=
  if toInt index > toInt (l.len - 1) then .ok (h, l, .error .indexError)
  else do
    let (h, l, _) ← ObjHeap.removeAt h l (toUnsigned index)
    .ok (h, l, .ok ())

/-- pycomps_sequence.c:436-452 `PyCOMPSSeq_append`, 487-508 `PyCOMPSSeq_append_unique`. -/
def append (k : Kind α) (h : Heap (Option α)) (l : OL) (item : Item α) :
    Res (Heap (Option α) × OL × Ans Unit) :=
  match convert k item with
  | none => .ok (h, l, .error .typeError)
  | some x => do
    let new ← if k.appendUnique then uniqueCheck k h l (some x) else .ok true
    if new then do
      if ← k.passes x then do
        let (h, l) ← ObjHeap.append h l (some x)
        .ok (h, l, .ok ())
      else .ok (h, l, .error .valueError)
    else .ok (h, l, .error .keyError)

/-- pycomps_sequence.c:475-482: the position used by `PyCOMPSSeq_insert`. -/
def insertPos (l : OL) (index : Int) : Int :=
  if index < 0 then
    let i := toInt (index + l.len)
    if i < 0 then 0 else i
  else if index > toInt l.len then toInt l.len
  else index

/-- pycomps_sequence.c:454-485 `PyCOMPSSeq_insert`; `index` was read as an `int`. -/
def insert (k : Kind α) (h : Heap (Option α)) (l : OL) (index : Int) (item : Item α) :
    Res (Heap (Option α) × OL × Ans Unit) :=
  match convert k item with
  | none => .ok (h, l, .error .typeError)
  | some x => do
    if ← k.passes x then do
      let (h, l, _) ← ObjHeap.insertAt h l (toUnsigned (insertPos l index)) (some x)
      .ok (h, l, .ok ())
    else .ok (h, l, .error .valueError)

/-- pycomps_sequence.c:510-531 `PyCOMPSSeq_remove`. -/
def remove [BEq α] (k : Kind α) (h : Heap (Option α)) (l : OL) (item : Item α) :
    Res (Heap (Option α) × OL × Ans Unit) :=
  match convert k item with
  | none => .ok (h, l, .error .typeError)
  | some x => do
    let (h, l, i) ← ObjHeap.remove h l (some x)
    if i = 0 then .ok (h, l, .error .valueError) else .ok (h, l, .ok ())

/-- pycomps_sequence.c:604-607 `PyCOMPSSeq_clear`. -/
def clear (h : Heap (Option α)) (l : OL) : Res (Heap (Option α) × OL × Ans Unit) := do
  let (h, l) ← ObjHeap.clear h l
  .ok (h, l, .ok ())

/-! ## Iteration -/

/-- pycomps_sequence.c:580-587 `PyCOMPSSeq_getiter`: the iterator keeps a pointer to a cell. -/
def getIter (l : OL) : Option Nat := l.first

/-- pycomps_sequence.c:589-602 `PyCOMPSSeq_iternext`: the next object (`none` ends the iteration)
and the iterator afterwards. -/
def iterNext (h : Heap (Option α)) (it : Option Nat) : Res (Option α × Option Nat) :=
  match it with
  | none => .ok (none, it)
  | some i => do
    let c ← h.deref (some i)
    match c.data with
    | none => .ok (none, it)
    | some a => .ok (some a, c.next)

/-! ## Slices -/

/-- A Python slice object `start:stop:step`. -/
structure Slice where
  start : Option Int
  stop : Option Int
  step : Option Int
  deriving DecidableEq, Repr

/-- One bound of a slice brought into range: the runtime's `PySlice_AdjustIndices`
(documented with `slice.indices`), not part of /repo. -/
def adjust (n step v : Int) : Int :=
  if v < 0 then
    if v + n < 0 then (if step < 0 then -1 else 0) else v + n
  else if v ≥ n then (if step < 0 then n - 1 else n)
  else v

/-- The start of a slice, by the runtime. -/
def startOf (n step : Int) : Option Int → Int
  | some v => adjust n step v
  | none => if step < 0 then n - 1 else 0

/-- The end of a slice, by the runtime. -/
def stopOf (n step : Int) : Option Int → Int
  | some v => adjust n step v
  | none => if step < 0 then -1 else n

/-- The runtime's `PySlice_GetIndicesEx` (called at pycomps_sequence.c:250, 310, 314): `istart`,
`istop`, `istep`, `ilen`; a step of 0 is an error. -/
def indices (s : Slice) (n : Int) : Ans (Int × Int × Int × Int) :=
  let step := s.step.getD 1
  if step = 0 then .error .valueError else
    let start := startOf n step s.start
    let stop := stopOf n step s.stop
    let len := if step < 0 then (if stop < start then (start - stop - 1) / (-step) + 1 else 0)
      else if start < stop then (stop - start - 1) / step + 1 else 0
    .ok (start, stop, step, len)

/-- `for (i=0; i<istart; it=it->next, i++);` (pycomps_sequence.c:261). -/
def walk (h : Heap (Option α)) : Nat → Option Nat → Res (Option Nat)
  | 0, it => .ok it
  | k + 1, it => do
    let c ← h.deref it
    walk h k c.next

/-- pycomps_sequence.c:265-269: going on by `istep - i` cells, from the last to the first.  `first`
is not NULL here. -/
def cycle (h : Heap (Option α)) (first : Option Nat) : Nat → Option Nat → Res (Option Nat)
  | 0, none => .ok first
  | 0, some i => .ok (some i)
  | k + 1, none => do
    let c ← h.deref first
    cycle h first k c.next
  | k + 1, some i => do
    let c ← h.deref (some i)
    cycle h first k c.next

/-- pycomps_sequence.c:262-270: the loop of `list_get_slice`; the first argument is
`ilen - clen`.  `i` is an `int`: counting to a greater `istep` overflows (signed overflow is shown as
`badConversion`). -/
def getSliceLoop (first : Option Nat) (istep : Int) :
    Nat → Heap (Option α) → Option Nat → OL → Res (Heap (Option α) × OL)
  | 0, h, _, ret => .ok (h, ret)
  | k + 1, h, it, ret => do
    let c ← h.deref it
    let (h, ret) ← ObjHeap.append h ret c.data
    if istep ≥ 2 ^ 31 then .error .badConversion else do
      let it ← cycle h first istep.toNat it
      getSliceLoop first istep k h it ret

/-- pycomps_sequence.c:238-271 `list_get_slice`: the new list. -/
def getSlice (h : Heap (Option α)) (l : OL) (s : Slice) : Res (Heap (Option α) × Ans OL) :=
  match indices s l.len with
  | .error e => .ok (h, .error e)
  | .ok (istart, _, istep, ilen) =>
    match l.first with
    | none => .ok (h, .ok create)
    | some _ => do
      let it ← walk h istart.toNat l.first
      let (h, ret) ← getSliceLoop l.first istep ilen.toNat h it create
      .ok (h, .ok ret)

/-- `for (i=0; i<istart && it != NULL; it=it->next, i++);` (pycomps_sequence.c:344, 358, 389, 400):
`it` and the steps left. -/
def walkMax (h : Heap (Option α)) : Nat → Option Nat → Res (Option Nat × Nat)
  | 0, it => .ok (it, 0)
  | k + 1, it =>
    match it with
    | none => .ok (none, k + 1)
    | some i => do
      let c ← h.deref (some i)
      walkMax h k c.next

/-- pycomps_sequence.c:358-360, 400-402: going on by `istep` cells, once from the last to the
first. -/
def wrapOnce (h : Heap (Option α)) (first : Option Nat) (istep : Int) (it : Option Nat) :
    Res (Option Nat) := do
  let (it, left) ← walkMax h istep.toNat it
  walk h left (if it = none then first else it)

/-- pycomps_sequence.c:305-317: the indices used by `list_set_slice`; those of an empty slice are
taken again for a longer list. -/
def setIndices (s : Slice) (n : Int) : Ans (Int × Int × Int × Int) := do
  let (istart, istop, istep, ilen) ← indices s n
  if ilen = 0 then indices s (n + istart) else .ok (istart, istop, istep, ilen)

/-- pycomps_sequence.c:390-403: the first loop of a slice deletion: the objects are given up.  The
first argument is `ilen - clen`. -/
def delMark (first : Option Nat) (istep : Int) :
    Nat → Heap (Option α) → Option Nat → Res (Heap (Option α) × Ans Unit)
  | 0, h, _ => .ok (h, .ok ())
  | k + 1, h, it =>
    match it with
    | none => .ok (h, .error .valueError)
    | some i => do
      let c ← h.deref (some i)
      let h := h.write i ⟨c.next, none⟩
      let it ← wrapOnce h first istep (some i)
      delMark first istep k h it

/-- `it2 && !it2->comps_obj` (pycomps_sequence.c:407, 411). -/
def isEmptied (h : Heap (Option α)) (it2 : Option Nat) : Res Bool :=
  match it2 with
  | none => .ok false
  | some j => do
    let c ← h.deref (some j)
    .ok c.data.isNone

/-- pycomps_sequence.c:404-410: the second loop of a slice deletion. -/
def delSweep : Nat → Heap (Option α) → OL → Nat → Option Nat → Option Nat →
    Res (Heap (Option α) × OL × Nat × Option Nat)
  | 0, _, _, _, _, _ => .error .diverges
  | fuel + 1, h, l, i, it, it2 =>
    match it with
    | none => .ok (h, l, i, it2)
    | some a => do
      let (h, l) ← if ← isEmptied h it2 then do
          let (h, l, _) ← ObjHeap.removeAt h l i
          (.ok (h, l) : Res (Heap (Option α) × OL))
        else .ok (h, l)
      let c ← h.deref (some a)
      delSweep fuel h l (i + 1) c.next (some a)

/-- pycomps_sequence.c:385-415: `list_set_slice` without a value: `del seq[slice]`. -/
def delSlice (h : Heap (Option α)) (l : OL) (s : Slice) : Res (Heap (Option α) × OL × Ans Unit) :=
  match setIndices s l.len with
  | .error e => .ok (h, l, .error e)
  | .ok (istart, _, istep, ilen) => do
    let (it, _) ← walkMax h istart.toNat l.first
    match ← delMark l.first istep ilen.toNat h it with
    | (h, .error e) => .ok (h, l, .error e)
    | (h, .ok ()) => do
      let (h, l, i, it2) ← delSweep (h.fresh + 1) h l 0 l.first none
      let (h, l) ← if ← isEmptied h it2 then do
          let (h, l, _) ← ObjHeap.removeAt h l i
          (.ok (h, l) : Res (Heap (Option α) × OL))
        else .ok (h, l)
      .ok (h, l, .ok ())

/-- pycomps_sequence.c:333-338: every member of `val` is checked against the list. -/
def checkAll (k : Kind α) (h : Heap (Option α)) (l : OL) : Nat → Option Nat → Res Bool
  | 0, _ => .error .diverges
  | fuel + 1, it =>
    match it with
    | none => .ok true
    | some i => do
      let c ← h.deref (some i)
      if ← uniqueCheck k h l c.data then checkAll k h l fuel c.next else .ok false

/-- pycomps_sequence.c:346-361: assignment with a step other than 1; the first argument is
`ilen - clen`. -/
def setStep (first : Option Nat) (istep : Int) :
    Nat → Heap (Option α) → Option Nat → Option Nat → Res (Heap (Option α) × Ans Unit)
  | 0, h, _, _ => .ok (h, .ok ())
  | k + 1, h, it, it2 =>
    match it with
    | none => .ok (h, .error .valueError)
    | some i => do
      let c2 ← h.deref it2
      let c ← h.deref (some i)
      let h := h.write i ⟨c.next, c2.data⟩
      let c2 ← h.deref it2
      let it ← wrapOnce h first istep (some i)
      setStep first istep k h it c2.next

/-- pycomps_sequence.c:366-370: objects are replaced while there are both cells and new objects. -/
def overwrite : Nat → Heap (Option α) → Option Nat → Option Nat → Nat →
    Res (Heap (Option α) × Option Nat × Option Nat × Nat)
  | 0, _, _, _, _ => .error .diverges
  | fuel + 1, h, it, it2, i =>
    match it2, it with
    | some b, some a => do
      let c2 ← h.deref (some b)
      let c ← h.deref (some a)
      let h := h.write a ⟨c.next, c2.data⟩
      let c2 ← h.deref (some b)
      let c ← h.deref (some a)
      overwrite fuel h c.next c2.next (i + 1)
    | _, _ => .ok (h, it, it2, i)

/-- pycomps_sequence.c:377-379: `comps_objlist_remove_at(list, i)` as often as the first argument
says. -/
def removeTimes (i : Nat) : Nat → Heap (Option α) → OL → Res (Heap (Option α) × OL)
  | 0, h, l => .ok (h, l)
  | k + 1, h, l => do
    let (h, l, _) ← ObjHeap.removeAt h l i
    removeTimes i k h l

/-- pycomps_sequence.c:303-384: `list_set_slice` with a value of the same type:
`seq[slice] = val`. -/
def setSlice (k : Kind α) (h : Heap (Option α)) (l : OL) (s : Slice) (val : OL) :
    Res (Heap (Option α) × OL × Ans Unit) :=
  match setIndices s l.len with
  | .error e => .ok (h, l, .error e)
  | .ok (istart, istop, istep, ilen) =>
    if istep ≠ 1 ∧ l.len ≠ ilen then .ok (h, l, .error .valueError)
    else do
      if ← checkAll k h l (h.fresh + 1) val.first then do
        let (it, left) ← walkMax h istart.toNat l.first
        if istep ≠ 1 then do
          let (h, r) ← setStep l.first istep ilen.toNat h it val.first
          .ok (h, l, r)
        else do
          let (h, it, it2, i) ← overwrite (h.fresh + 1) h it val.first (istart.toNat - left)
          match it with
          | none => do
            let (h, l) ← appendLoop id (h.fresh + 1) h it2 l
            .ok (h, l, .ok ())
          | some _ => do
            let (h, l) ← removeTimes i (istop - i).toNat h l
            .ok (h, l, .ok ())
      else .ok (h, l, .error .keyError)

/-! ## The five kinds of lists -/

/-- Does an object pass `comps_validate_execute` with these rules: `pycomps_group_validate` and the
like (pycomps_groups.c, pycomps_categories.c, pycomps_envs.c, pycomps_gids.c) through
`__pycomps_validate_process` (pycomps_utils.c:397-409). -/
def validates (o : Val.VObj) (rules : List (Val.Rule Val.VObj)) : Res Bool := do
  match ← Val.execute o rules with
  | .ok => .ok true
  | .err _ => .ok false

/-- `PyCOMPS_GroupsInfo` (pycomps_groups.c:363-371) with the methods at 497-500, 520; `get` is the
object at an address. -/
def groupKind (get : α → Group) : Kind α where
  fromStr _ := none
  ident a := asStr ((get a).props.get b!"id")
  key a := asStr ((get a).props.get b!"id")
  passes a := validates (.group (get a)) Val.groupRules
  extra := true
  appendUnique := true

/-- `PyCOMPS_CatsInfo` (pycomps_categories.c:291-299, 365-368, 388). -/
def categoryKind (get : α → Category) : Kind α where
  fromStr _ := none
  ident a := asStr ((get a).props.get b!"id")
  key a := asStr ((get a).props.get b!"id")
  passes a := validates (.category (get a)) Val.categoryRules
  extra := true
  appendUnique := true

/-- `PyCOMPS_EnvsInfo` (pycomps_envs.c:311-319, 388-391, 412). -/
def envKind (get : α → Env) : Kind α where
  fromStr _ := none
  ident a := asStr ((get a).props.get b!"id")
  key a := asStr ((get a).props.get b!"id")
  passes a := validates (.env (get a)) Val.envRules
  extra := true
  appendUnique := true

/-- `PyCOMPS_PkgsInfo` (pycomps_groups.c:624-632, 666): at `props_offset` there is the name, a
string object which `list_unique_id_check` uses as a dictionary; `list_getitem_byid` looks at its type
first. -/
def packageKind (get : α → Package) : Kind α where
  fromStr _ := none
  ident _ := .error .typeConfusion
  key a := match (get a).name with
    | none => .error .nullDeref
    | some s => .ok (some s)
  passes a := validates (.package (get a)) Val.packageRules
  extra := true
  appendUnique := false

/-- `PyCOMPS_GIDsInfo` (pycomps_gids.c:264-272): no `props_offset`, so `list_unique_id_check` uses the
description of the type as a dictionary.  `new` is the address of the object made from a string.  The
methods are those of `PyCOMPS_SeqType`, which does not look up by id. -/
def gidKind (get : α → GroupId) (new : Bytes → α) : Kind α where
  fromStr s := some (new s)
  ident _ := .error .typeConfusion
  key _ := .error .typeConfusion
  passes a := validates (.groupId (get a)) Val.groupIdRules
  extra := false
  appendUnique := false

end Comps.PySeq
