import Verif.Model.RTree

/-!
# The plain dictionary `COMPS_Dict` / `COMPS_RTree`

`/repo/libcomps/src/comps_radix.c`, with the wrappers of `comps_dict.c`.  It is the radix tree of
`comps_objradix.c` (`Verif/Model/RTree.lean`) with other values: pointers that the dictionary owns and
passes to a destructor.  The parser keeps the attributes of an element in such a dictionary
(comps_elem.c:914-925).

`V` is the type of pointers (their identities), NULL is `none`.  Operations return, besides the new
tree, the pointers they pass to the destructor, in order; passing NULL is `none`.  Allocations succeed.
-/

namespace Comps
namespace Radix
variable {V : Type}

/-- comps_radix.h `COMPS_RTree`: `data_constructor` and `data_cloner` (NULL is `none`), and whether
`data_destructor` is not NULL.  Simplification: a cloner does not return NULL. -/
structure Calls (V : Type) where
  ctor : Option (Option V → Option V)
  cloner : Option (V → V)
  dtor : Bool

/-- comps_radix.h `COMPS_RTree.subnodes`: the list of subnodes, or a list whose cells are freed while
`first` still points to them. -/
inductive Store (V : Type) where
  | live (l : HSList (Node V))
  | dangling

/-- comps_radix.c:73-89 `comps_rtree_create`, comps_dict.c:22-27. -/
def create : Store V := .live HSList.empty

/-- `rt->subnodes->first` read. -/
def Store.list : Store V → Res (HSList (Node V))
  | .live l => .ok l
  | .dangling => .error .useAfterFree

/-- comps_radix.c:203-207: the value stored for `data`. -/
def newData (c : Calls V) (data : Option V) : Option V :=
  match c.ctor with
  | some f => f data
  | none => data

mutual
/-- comps_radix.c:25-31 `comps_rtree_data_destroy`: the pointers passed to the destructor, which is
not NULL; `comps_hslist_destroy` (comps_hslist.c:185-204) goes on with the subnodes. -/
def dropNode : Node V → List V
  | .mk _ data sub _ => data.toList ++ dropList sub
/-- comps_hslist.c:185-204 `comps_hslist_destroy` of a list of nodes. -/
def dropList : List (Node V) → List V
  | [] => []
  | n :: ns => dropNode n ++ dropList ns
end

/-- comps_radix.c:27-28: without a destructor nothing is called. -/
def dropped (c : Calls V) (l : List V) : List (Option V) := if c.dtor then l.map some else []

/-- comps_radix.c:240, 396: `data_destructor(data)`, called without a test for NULL. -/
def destroyData (c : Calls V) (data : Option V) : Res (List (Option V)) :=
  if c.dtor then .ok [data] else .error .nullDeref

/-- comps_radix.c:189-293 `__comps_rtree_set`, the `while (offset != len)` loop; arguments as in
`RTree.setLoop`.  Lines 223 and 266-282 use the NUL-terminated string and ignore `len`; 246-247 uses
it. -/
def setLoop (c : Calls V) (lt : UInt8 → UInt8 → Bool) (v : Option V) (rest : Bytes) :
    Nat → Bytes → HSList (Node V) → Res (HSList (Node V) × List (Option V))
  | 0, _, l => .ok (l, [])
  | _ + 1, [], l => .ok (l, [])
  | fuel + 1, b :: bs, l =>
    match RTree.findAt b l.items with
    | none =>                                            -- 222-229
      match RTree.lesserAt lt b l.items with
      | none => .ok (l.prepend (Node.leaf (b :: bs ++ rest) v), [])
      | some i => .ok (l.insertAfter i (Node.leaf (b :: bs ++ rest) v), [])
    | some (i, n) =>
      match RTree.matchKey n.key (b :: bs) with
      | .both _ => do                                    -- 239-242
        let d ← destroyData c n.data
        .ok (l.setAt i (Node.mk n.key v n.sub n.tail), d)
      | .keyEnds x =>                                    -- 243-258
        let moved := Node.mk (n.key.drop x) n.data n.sub n.tail
        .ok ((l.removeAt i).append (Node.mk (b :: bs) v [moved] true), [])
      | .nodeEnds x => do                                -- 259-261
        let r ← setLoop c lt v rest fuel ((b :: bs).drop x) n.subnodes
        .ok (l.setAt i (Node.ofList n.key n.data r.1), r.2)
      | .differ x =>                                     -- 262-289
        let old := Node.mk (n.key.drop x) n.data n.sub n.tail
        let new := Node.leaf ((b :: bs).drop x ++ rest) v
        let subs :=
          if RTree.strGt ((b :: bs).drop x ++ rest) (n.key.drop x)
          then (HSList.empty.append old).append new
          else (HSList.empty.append new).append old
        .ok (l.setAt i (Node.ofList (n.key.take x) none subs), [])

/-- comps_radix.c:299-302 `comps_rtree_set_n`, comps_dict.c:38-41.  Simplification: a length beyond the
end of the string, with which line 248 may read past the end, is a fault in any case. -/
def setN (c : Calls V) (lt : UInt8 → UInt8 → Bool) (s : Store V) (key : Bytes) (len : Nat)
    (data : Option V) : Res (Store V × List (Option V)) := do
  let l ← s.list
  if key.length < len then .error .outOfBounds else do
  let r ← setLoop c lt (newData c data) (key.drop len) len (key.take len) l
  .ok (.live r.1, r.2)

/-- comps_radix.c:295-298 `comps_rtree_set`, comps_dict.c:35-37. -/
def set (c : Calls V) (lt : UInt8 → UInt8 → Bool) (s : Store V) (key : Bytes) (data : Option V) :
    Res (Store V × List (Option V)) := setN c lt s key key.length data

/-- comps_radix.c:304-344 `comps_rtree_get`, comps_dict.c:43-45: the statements of
`__comps_objrtree_get`. -/
def get (s : Store V) (key : Bytes) : Res (Option V) := do
  let l ← s.list
  .ok (RTree.getLoop key.length key l.items)

/-- comps_radix.c:346-441 `comps_rtree_unset`, the loop; arguments and comments as for
`RTree.unsetLoop`.  Line 394 tests the address of the field `data_destructor`, which is never NULL. -/
def unsetLoop (c : Calls V) : Nat → Bool → Bytes → HSList (Node V) →
    Res (Option (HSList (Node V) × List (Option V)))
  | 0, _, _, _ => .ok none
  | _ + 1, _, [], _ => .ok none
  | fuel + 1, nested, b :: bs, l =>
    match RTree.findAt b l.items with
    | none => .ok none
    | some (i, n) =>
      match RTree.matchKey n.key (b :: bs) with
      | .both _ => do
        let r ← if n.tail then do
            let d ← destroyData c n.data
            .ok (l.setAt i (Node.mk n.key none n.sub n.tail), d)
          else .ok (l.removeAt i, dropped c (dropNode n))
        if nested && !r.1.tailSet then .error .useAfterFree else .ok (some r)
      | .nodeEnds x => do
        let r ← unsetLoop c fuel true ((b :: bs).drop x) n.subnodes
        match r with
        | none => .ok none
        | some s => .ok (some (l.setAt i (Node.ofList n.key n.data s.1), s.2))
      | .keyEnds _ => .ok none
      | .differ _ => .ok none

/-- comps_radix.c:346-441 `comps_rtree_unset`, comps_dict.c:46-48. -/
def unset (c : Calls V) (s : Store V) (key : Bytes) : Res (Store V × List (Option V)) := do
  let l ← s.list
  let r ← unsetLoop c key.length false key l
  match r with
  | none => .ok (s, [])
  | some r => .ok (.live r.1, r.2)

/-- comps_radix.c:443-460 `comps_rtree_clear`, comps_dict.c:49-51: the cells are freed, `first` and
`last` are left as they are. -/
def clear (c : Calls V) (s : Store V) : Res (Store V × List (Option V)) := do
  let l ← s.list
  match l.items with
  | [] => .ok (s, [])
  | _ :: _ => .ok (.dangling, dropped c (dropList l.items))

/-- comps_radix.c:91-95 `comps_rtree_destroy`, comps_dict.c:29-31. -/
def destroy (c : Calls V) (s : Store V) : Res (List (Option V)) := do
  let l ← s.list
  .ok (dropped c (dropList l.items))

/-- comps_radix.c:462-524, 603-605 `comps_rtree_pairs`, comps_dict.c:68-70: the loop of
`__comps_objrtree_all`. -/
def pairs (s : Store V) : Res (List (Bytes × V)) := do
  let l ← s.list
  .ok (RTree.pairs ⟨l, 0⟩)

/-- comps_radix.c:595-597 `comps_rtree_keys`, comps_dict.c:65-67. -/
def keys (s : Store V) : Res (List Bytes) := do
  let l ← s.list
  .ok (RTree.keys ⟨l, 0⟩)

/-- comps_radix.c:599-601 `comps_rtree_values`, comps_dict.c:52-54. -/
def values (s : Store V) : Res (List V) := do
  let l ← s.list
  .ok (RTree.values ⟨l, 0⟩)

/-- comps_radix.c:165-187 `comps_rtree_values_walk`, comps_dict.c:55-58. -/
def valuesWalk (s : Store V) : Res (List V) := do
  let l ← s.list
  .ok (RTree.valuesWalk ⟨l, 0⟩)

/-- comps_radix.c:105-163 `comps_rtree_clone`, comps_dict.c:59-64: the nodes as in `RTree.clone`.  The
cloner is called for every pointer that is not NULL, without a test. -/
def clone (c : Calls V) (s : Store V) : Res (Store V) := do
  let l ← s.list
  match c.cloner with
  | some f => .ok (.live (HSList.ofAppends (RTree.cloneList f l.items)))
  | none =>
    match dropList l.items with
    | [] => .ok (.live (HSList.ofAppends (RTree.cloneList id l.items)))
    | _ :: _ => .error .nullDeref

/-- comps_radix.c:568-573: a pointer of `rt2`, cloned by `rt2`, is set in `rt1`. -/
def uniteData (c1 c2 : Calls V) (lt : UInt8 → UInt8 → Bool) (key : Bytes) (data : Option V)
    (r : Store V × List (Option V)) : Res (Store V × List (Option V)) :=
  match data with
  | none => .ok r
  | some v =>
    match c2.cloner with
    | none => .error .nullDeref
    | some f => do
      let x ← set c1 lt r.1 key (some (f v))
      .ok (x.1, r.2 ++ x.2)

/-- comps_radix.c:549-580: the inner loop of `comps_rtree_unite` over one child list with full key
`k`. -/
def uniteItems (c1 c2 : Calls V) (lt : UInt8 → UInt8 → Bool) (k : Bytes) (l : List (Node V))
    (r : Store V × List (Option V)) : Res (Store V × List (Option V)) :=
  l.foldlM (fun r n => uniteData c1 c2 lt (k ++ n.key) n.data r) r

/-- comps_radix.c:542-583: the queue loop of `comps_rtree_unite`, as in `RTree.uniteLoop`. -/
def uniteLoop (c1 c2 : Calls V) (lt : UInt8 → UInt8 → Bool) :
    Nat → List (Bytes × List (Node V)) → Store V × List (Option V) →
    Res (Store V × List (Option V))
  | 0, _, r => .ok r
  | _ + 1, [], r => .ok r
  | fuel + 1, (k, l) :: queue, r => do
    let r ← uniteItems c1 c2 lt k l r
    uniteLoop c1 c2 lt fuel
      (queue ++ (l.filter fun n => !n.sub.isEmpty).map fun n => (k ++ n.key, n.sub)) r

/-- comps_radix.c:526-585 `comps_rtree_unite`, for two different trees. -/
def unite (c1 c2 : Calls V) (lt : UInt8 → UInt8 → Bool) (s1 s2 : Store V) :
    Res (Store V × List (Option V)) := do
  let l ← s2.list
  uniteLoop c1 c2 lt (RTree.listCount l.items + 1) [([], l.items)] (s1, [])

/-- comps_radix.c:587-592 `comps_rtree_union`, comps_dict.c:71-73: a clone of the second operand, then
unite with the first.  The result has the callbacks of the second. -/
def union (c1 c2 : Calls V) (lt : UInt8 → UInt8 → Bool) (s1 s2 : Store V) :
    Res (Store V × List (Option V)) := do
  let s ← clone c2 s2
  unite c2 c1 lt s s1

end Radix
end Comps
