import Verif.Model.Radix

/-!
# The dictionary with keys of any kind, `COMPS_BRTree`

`/repo/libcomps/src/comps_bradix.c`: a radix tree like `comps_radix.c` (`Verif/Model/Radix.lean`), whose
keys are only used through functions given by the caller.  What these functions have to do is nowhere
written down; the model takes those of `/repo/libcomps/tests/check_brtree.c`:68-160, with which keys are
byte strings with a length (a key may contain NUL).  Lengths do not overflow `unsigned int`.

`V` is the type of pointers stored.  Operations return, besides the new tree, the pointers they pass to
the destructor, in order; passing NULL is `none`.  Allocations succeed.
-/

namespace Comps
namespace BRadix
open Comps.Radix (Calls Store newData destroyData dropped dropList dropNode)
variable {V : Type}

/-- comps_bradix.c:73-107 `comps_brtree_create`. -/
def create : Store V := .live HSList.empty

/-- check_brtree.c:129-144 `subkey`: the bytes from `offset` to `len`.  The number of bytes is computed
as an unsigned number, so a `len` before `offset` makes `memcpy` write past the buffer. -/
def subkey (key : Bytes) (offset len : Nat) : Res Bytes :=
  if len < offset then .error .outOfBounds else .ok ((key.drop offset).take (len - offset))

/-- comps_bradix.c:232-319 `comps_brtree_set`, the `while (offset < len)` loop.  `pre` is the key up to
`offset`, then comes the rest of it.  The first argument bounds the iterations.
With the functions of check_brtree.c:101-127 `key_cmp(..., 1, &ended) == 2` (259-260) compares one byte
(`RTree.findAt`), and `key_cmp(..., len, &ended)` (273) is `RTree.matchKey`. -/
def setLoop (c : Calls V) (v : Option V) : Nat → Bytes → Bytes → HSList (Node V) →
    Res (HSList (Node V) × List (Option V))
  | 0, _, _, l => .ok (l, [])
  | _ + 1, _, [], l => .ok (l, [])
  | fuel + 1, pre, b :: bs, l =>
    match RTree.findAt b l.items with
    | none => .ok (l.append (Node.leaf (b :: bs) v), [])    -- 265-270
    | some (i, n) =>
      match RTree.matchKey n.key (b :: bs) with
      | .both _ => do                                       -- 274-277
        let d ← destroyData c n.data
        .ok (l.setAt i (Node.mk n.key v n.sub n.tail), d)
      | .keyEnds _ => do                                    -- 278-292; the whole key, not the rest
        let k ← subkey n.key ((pre ++ b :: bs).length + pre.length) (n.key.length - (b :: bs).length)
        .ok ((l.removeAt i).append
          (Node.mk (pre ++ b :: bs) v [Node.mk k n.data n.sub n.tail] true), [])
      | .nodeEnds x => do                                   -- 293-295
        let r ← setLoop c v fuel (pre ++ (b :: bs).take x) ((b :: bs).drop x) n.subnodes
        .ok (l.setAt i (Node.ofList n.key n.data r.1), r.2)
      | .differ x =>                                        -- 296-315
        let old := Node.mk (n.key.drop x) n.data n.sub n.tail
        let new := Node.leaf ((b :: bs).drop x) v
        .ok ((l.removeAt i).append
          (Node.ofList (n.key.take x) none ((HSList.empty.append new).append old)), [])

/-- comps_bradix.c:232-319 `comps_brtree_set`. -/
def set (c : Calls V) (s : Store V) (key : Bytes) (data : Option V) :
    Res (Store V × List (Option V)) := do
  let l ← s.list
  let r ← setLoop c (newData c data) key.length [] key l
  .ok (.live r.1, r.2)

/-- comps_bradix.c:321-353 `comps_brtree_get` (and 355-387 `comps_brtree_getp`): the statements of
`__comps_objrtree_get`. -/
def get (s : Store V) (key : Bytes) : Res (Option V) := do
  let l ← s.list
  .ok (RTree.getLoop key.length key l.items)

/-- comps_bradix.c:389-481 `comps_brtree_unset`, the loop.  Lines 414-415 test `key_cmp(...)` for being
not zero, which it always is, so the first subnode is taken.  Lines 434-439: without a destructor a node
with subnodes keeps its data.  448-461: as in `RTree.unsetLoop` a parent that has no subnodes left is
freed and then used.  The comparison (425) starts at the second byte of the node's key, of which there has
to be a first.
Simplification: `strlen(key)` (408) is the length of the key, which is so if keys are C strings; for any
other kind of key `strlen` reads something that is no string.  What is printed (429, 435) is left out. -/
def unsetLoop (c : Calls V) : Nat → Bool → Bytes → HSList (Node V) →
    Res (Option (HSList (Node V) × List (Option V)))
  | 0, _, _, _ => .ok none
  | _ + 1, _, [], _ => .ok none
  | fuel + 1, nested, b :: bs, l =>
    match l.items with
    | [] => .ok none
    | n :: _ =>
      if n.key.isEmpty then .error .outOfBounds else
      match RTree.matchKey n.key (b :: bs) with
      | .both _ =>
        let r :=
          if n.tail then
            if c.dtor then (l.setAt 0 (Node.mk n.key none n.sub n.tail), [n.data]) else (l, [])
          else (l.removeAt 0, dropped c (dropNode n))
        if nested && !r.1.tailSet then .error .useAfterFree else .ok (some r)
      | .nodeEnds x => do
        let r ← unsetLoop c fuel true ((b :: bs).drop x) n.subnodes
        match r with
        | none => .ok none
        | some s => .ok (some (l.setAt 0 (Node.ofList n.key n.data s.1), s.2))
      | .keyEnds _ => .ok none
      | .differ _ => .ok none

/-- comps_bradix.c:389-481 `comps_brtree_unset`. -/
def unset (c : Calls V) (s : Store V) (key : Bytes) : Res (Store V × List (Option V)) := do
  let l ← s.list
  let r ← unsetLoop c key.length false key l
  match r with
  | none => .ok (s, [])
  | some r => .ok (.live r.1, r.2)

/-- comps_bradix.c:483-501 `comps_brtree_clear`: the cells are freed, `first` and `last` are left as
they are. -/
def clear (c : Calls V) (s : Store V) : Res (Store V × List (Option V)) := do
  let l ← s.list
  match l.items with
  | [] => .ok (s, [])
  | _ :: _ => .ok (.dangling, dropped c (dropList l.items))

/-- comps_bradix.c:109-113 `comps_brtree_destroy` with 23-33 `comps_brtree_data_destroy`. -/
def destroy (c : Calls V) (s : Store V) : Res (List (Option V)) := do
  let l ← s.list
  .ok (dropped c (dropList l.items))

/-- comps_bradix.c:531-582 `__comps_brtree_all`: a queue of child lists with the key of their parent.
The first argument bounds the iterations. -/
def allLoop : Nat → List (Bytes × List (Node V)) → List (Bytes × V)
  | 0, _ => []
  | _ + 1, [] => []
  | fuel + 1, (k, l) :: queue =>
    l.flatMap (fun n => match n.data with | some v => [(k ++ n.key, v)] | none => []) ++
      allLoop fuel (queue ++ (l.filter fun n => !n.sub.isEmpty).map fun n => (k ++ n.key, n.sub))

/-- comps_bradix.c:503-586, 592-594 `comps_brtree_pairs`. -/
def pairs (s : Store V) : Res (List (Bytes × V)) := do
  let l ← s.list
  .ok (allLoop (RTree.listCount l.items + 1) [([], l.items)])

/-- comps_bradix.c:503-590 `comps_brtree_keys`. -/
def keys (s : Store V) : Res (List Bytes) := do
  let ps ← pairs s
  .ok (ps.map Prod.fst)

/-- comps_bradix.c:115-142 `comps_brtree_values`; 208-230 `comps_brtree_values_walk` passes the same
pointers on in the same order. -/
def values (s : Store V) : Res (List V) := do
  let l ← s.list
  .ok (RTree.valuesWalk ⟨l, 0⟩)

/-- comps_bradix.c:144-206 `comps_brtree_clone`.  For the nodes of the first level (167-178) the cloner
is called with NULL too.
Simplifications: a cloner that is given NULL, and a NULL cloner that is called, are a fault; as in
`RTree.cloneNode` the nodes are made by plain recursion. -/
def clone (c : Calls V) (s : Store V) : Res (Store V) := do
  let l ← s.list
  match c.cloner with
  | some f =>
    if l.items.all fun n => n.data.isSome then
      .ok (.live (HSList.ofAppends (RTree.cloneList f l.items)))
    else .error .nullDeref
  | none => if l.items.isEmpty then .ok create else .error .nullDeref

end BRadix
end Comps
