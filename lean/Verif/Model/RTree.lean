import Verif.Model.HSList
import Verif.Model.CSet

/-!
# The dictionary `COMPS_ObjDict` / `COMPS_ObjRTree`

`/repo/libcomps/src/comps_objradix.c`, with the wrappers of `comps_objdict.c`.

`V` is the type of values; the C `NULL` value pointer is `none`.  Values are trees, not
shared references: reference counting is modelled in `Verif/Model/RefC.lean`.
-/

namespace Comps

/-- comps_objradix.h `COMPS_ObjRTreeData`: key, data, and the list `subnodes`
(`sub`, `tail` are the fields of an `HSList`; see `Node.subnodes`).  `is_leaf` is never read
and is left out. -/
inductive Node (V : Type) where
  | mk (key : Bytes) (data : Option V) (sub : List (Node V)) (tail : Bool)

namespace Node
variable {V : Type}

/-- comps_objradix.h field `key`. -/
def key : Node V → Bytes | mk k _ _ _ => k
/-- comps_objradix.h field `data`. -/
def data : Node V → Option V | mk _ d _ _ => d
/-- comps_objradix.h field `subnodes` (the cells). -/
def sub : Node V → List (Node V) | mk _ _ s _ => s
/-- comps_objradix.h field `subnodes->last != NULL`. -/
def tail : Node V → Bool | mk _ _ _ t => t
/-- comps_objradix.h field `subnodes`. -/
def subnodes (n : Node V) : HSList (Node V) := ⟨n.sub, n.tail⟩
/-- Node built from a subnode list (assignment to `rtdata->subnodes`). -/
def ofList (key : Bytes) (data : Option V) (l : HSList (Node V)) : Node V :=
  mk key data l.items l.tailSet
/-- comps_objradix.c:35-67 `__comps_objrtree_data_create`: a node with no subnodes. -/
def leaf (key : Bytes) (data : Option V) : Node V := mk key data [] false

end Node

/-- comps_objradix.h `COMPS_ObjRTree`. -/
structure RTree (V : Type) where
  subnodes : HSList (Node V)
  len : Nat

namespace RTree
variable {V : Type}

/-- comps_objradix.c:69-82 `comps_objrtree_create`. -/
def create : RTree V := ⟨HSList.empty, 0⟩

/-- comps_objradix.c:361-364, 475-480, 537-542: position of the first subnode whose key
starts with byte `c`. -/
def findAt (c : UInt8) : List (Node V) → Option (Nat × Node V)
  | [] => none
  | n :: ns =>
    if n.key.head? = some c then some (0, n)
    else (findAt c ns).map fun p => (p.1 + 1, p.2)

/-- comps_objradix.c:360-368: `lesser`, the last subnode whose first byte is less than `c`,
in a list in which `c` was not found. `lt` is the order of `char`. -/
def lesserAt (lt : UInt8 → UInt8 → Bool) (c : UInt8) : List (Node V) → Option Nat
  | [] => none
  | n :: ns =>
    match lesserAt lt c ns with
    | some i => some (i + 1)
    | none => match n.key with
      | [] => none
      | b :: _ => if lt b c then some 0 else none

/-- Outcome of the key matching loop; `x` is the loop variable. -/
inductive Match where
  /-- `ended == 3` -/
  | both (x : Nat)
  /-- `ended == 2`: the searched key ends first -/
  | keyEnds (x : Nat)
  /-- `ended == 1`: the node key ends first -/
  | nodeEnds (x : Nat)
  /-- `ended == 0`: the keys differ at `x` -/
  | differ (x : Nat)
  deriving DecidableEq, Repr

/-- comps_objradix.c:381-386, 486-492, 549-555: the loop `for (x=1; ;x++)`.  First argument
the node key from position `x`, second the searched key from position `x`. -/
def matchFrom : Bytes → Bytes → Nat → Match
  | [], [], x => .both x
  | [], _ :: _, x => .nodeEnds x
  | _ :: _, [], x => .keyEnds x
  | a :: as, b :: bs, x => if b = a then matchFrom as bs (x + 1) else .differ x

/-- The loop started at `x = 1` (position 0 is known to match). -/
def matchKey (nodeKey key : Bytes) : Match := matchFrom (nodeKey.drop 1) (key.drop 1) 1

/-- `strcmp(a, b) > 0` (used at comps_objradix.c:418); bytes compare as unsigned char. -/
def strGt : Bytes → Bytes → Bool
  | [], _ => false
  | _ :: _, [] => true
  | a :: as, b :: bs => if a = b then strGt as bs else b < a

/-- comps_objradix.c:339-445 `__comps_objrtree_set`, the `while (offset != len)` loop.
`key` is the part of the key from `offset` to `len`; `rest` is what follows `len` in the C
string (empty except for `comps_objrtree_set_n` with a shorter length): lines 418-433 use the
NUL-terminated string and ignore `len`.  The result is the new list and the increment of
`rt->len`.  The first argument bounds the number of iterations; `offset` grows by at least one
in each, so the key length is enough. -/
def setLoop (lt : UInt8 → UInt8 → Bool) (v : Option V) (rest : Bytes) :
    Nat → Bytes → HSList (Node V) → HSList (Node V) × Nat
  | 0, _, l => (l, 0)
  | _ + 1, [], l => (l, 0)
  | fuel + 1, c :: cs, l =>
    match findAt c l.items with
    | none =>                                            -- 369-377
      match lesserAt lt c l.items with
      | none => (l.prepend (Node.leaf (c :: cs) v), 1)
      | some i => (l.insertAfter i (Node.leaf (c :: cs) v), 1)
    | some (i, n) =>
      match matchKey n.key (c :: cs) with
      | .both _ =>                                       -- 387-390
        (l.setAt i (Node.mk n.key v n.sub n.tail), 0)
      | .keyEnds x =>                                    -- 391-407
        let moved := Node.mk (n.key.drop x) n.data n.sub n.tail
        ((l.removeAt i).append (Node.mk (c :: cs) v [moved] true), 1)
      | .nodeEnds x =>                                   -- 408-410
        let r := setLoop lt v rest fuel ((c :: cs).drop x) n.subnodes
        (l.setAt i (Node.ofList n.key n.data r.1), r.2)
      | .differ x =>                                     -- 411-442
        let old := Node.mk (n.key.drop x) n.data n.sub n.tail
        let new := Node.leaf ((c :: cs).drop x ++ rest) v
        let subs :=
          if strGt ((c :: cs).drop x ++ rest) (n.key.drop x)
          then (HSList.empty.append old).append new
          else (HSList.empty.append new).append old
        (l.setAt i (Node.ofList (n.key.take x) none subs), 1)

/-- comps_objradix.c:447-452 `comps_objrtree_set_x`, `comps_objrtree_set`
(the reference count is not modelled here). `rt->subnodes` is never NULL. -/
def set (lt : UInt8 → UInt8 → Bool) (t : RTree V) (key : Bytes) (v : Option V) : RTree V :=
  let r := setLoop lt v [] key.length key t.subnodes
  ⟨r.1, t.len + r.2⟩

/-- comps_objradix.c:453-460 `comps_objrtree_set_n`, `comps_objrtree_set_nx`, for
`len <= strlen(key)`. -/
def setN (lt : UInt8 → UInt8 → Bool) (t : RTree V) (key : Bytes) (len : Nat) (v : Option V) :
    RTree V :=
  let r := setLoop lt v (key.drop len) len (key.take len) t.subnodes
  ⟨r.1, t.len + r.2⟩

/-- comps_objradix.c:462-508 `__comps_objrtree_get`, the `while (offset != len)` loop.
The bound on iterations is as in `setLoop`. The code after the loop (502-507) is reached only
with the empty key, where `it` is NULL. -/
def getLoop : Nat → Bytes → List (Node V) → Option V
  | 0, _, _ => none
  | _ + 1, [], _ => none
  | fuel + 1, c :: cs, l =>
    match findAt c l with
    | none => none
    | some (_, n) =>
      match matchKey n.key (c :: cs) with
      | .both _ => n.data
      | .nodeEnds x => getLoop fuel ((c :: cs).drop x) n.sub
      | .keyEnds _ => none
      | .differ _ => none

/-- comps_objradix.c:509-514 `comps_objrtree_get`, `comps_objrtree_get_x`. -/
def get (t : RTree V) (key : Bytes) : Option V := getLoop key.length key t.subnodes.items

/-- comps_objradix.c:516-611 `comps_objrtree_unset`, the loop.  `none` means "not found,
nothing changed".  `nested` says that `path` is not empty.

Lines 558-569: when the node's `subnodes->last` is NULL the node is destroyed with all its
subnodes, otherwise only its data.  Lines 571-591: if the path is not empty and the parent's
`subnodes->last` is NULL, `comps_objrtree_data_destroy(rtdata)` frees `rtdata->subnodes`, and
then `comps_hslist_remove` walks that same freed list (`parent_nodes` is the parent's own list,
lines 604-605): a use after free.  `len` is not changed. -/
def unsetLoop : Nat → Bool → Bytes → HSList (Node V) → Res (Option (HSList (Node V)))
  | 0, _, _, _ => .ok none
  | _ + 1, _, [], _ => .ok none
  | fuel + 1, nested, c :: cs, l =>
    match findAt c l.items with
    | none => .ok none
    | some (i, n) =>
      match matchKey n.key (c :: cs) with
      | .both _ =>
        let s := if n.tail then l.setAt i (Node.mk n.key none n.sub n.tail) else l.removeAt i
        if nested && !s.tailSet then .error .useAfterFree else .ok (some s)
      | .nodeEnds x =>
        match unsetLoop fuel true ((c :: cs).drop x) n.subnodes with
        | .error f => .error f
        | .ok none => .ok none
        | .ok (some s) => .ok (some (l.setAt i (Node.ofList n.key n.data s)))
      | .keyEnds _ => .ok none
      | .differ _ => .ok none

/-- comps_objradix.c:516-611 `comps_objrtree_unset`. -/
def unset (t : RTree V) (key : Bytes) : Res (RTree V) :=
  match unsetLoop key.length false key t.subnodes with
  | .error f => .error f
  | .ok none => .ok t
  | .ok (some s) => .ok ⟨s, t.len⟩

/-- comps_objradix.c:613-617 `comps_objrtree_clear`. -/
def clear (_ : RTree V) : RTree V := ⟨HSList.empty, 0⟩

mutual
/-- Number of nodes; only a bound for the work-list loops below. -/
def nodeCount : Node V → Nat
  | .mk _ _ sub _ => 1 + listCount sub
/-- Number of nodes of a list; only a bound for the work-list loops below. -/
def listCount : List (Node V) → Nat
  | [] => 0
  | n :: ns => nodeCount n + listCount ns
end

/-- comps_objradix.c:648-677 `__comps_objrtree_all`, the `while (to_process->first)` loop:
take the first entry, emit it if it has data, put its children at positions 0, 1, ... of the
work list.  An entry is a node with its full key.  The first argument bounds the iterations. -/
def allLoop : Nat → List (Bytes × Node V) → List (Bytes × V)
  | 0, _ => []
  | _ + 1, [] => []
  | fuel + 1, (k, n) :: todo =>
    (match n.data with | some v => [(k, v)] | none => []) ++
      allLoop fuel (n.sub.map (fun c => (k ++ c.key, c)) ++ todo)

/-- comps_objradix.c:760-762 `comps_objrtree_pairs`. -/
def pairs (t : RTree V) : List (Bytes × V) :=
  allLoop (listCount t.subnodes.items) (t.subnodes.items.map fun n => (n.key, n))

/-- comps_objradix.c:752-754 `comps_objrtree_keys` (same loop, line 655). -/
def keys (t : RTree V) : List Bytes := t.pairs.map Prod.fst

/-- comps_objradix.c:756-758 `comps_objrtree_values` (same loop, line 657). -/
def values (t : RTree V) : List V := t.pairs.map Prod.snd

/-- comps_objradix.c:269-282 `comps_objrtree_values_walk`: queue of lists; the values passed to
`walk_f`, in order.  The first argument bounds the iterations. -/
def walkLoop : Nat → List (List (Node V)) → List V
  | 0, _ => []
  | _ + 1, [] => []
  | fuel + 1, l :: queue =>
    l.filterMap Node.data ++
      walkLoop fuel (queue ++ (l.map Node.sub).filter fun s => !s.isEmpty)

/-- comps_objradix.c:262-284 `comps_objrtree_values_walk`. -/
def valuesWalk (t : RTree V) : List V :=
  walkLoop (listCount t.subnodes.items + 1) [t.subnodes.items]

mutual
/-- comps_objradix.c:106-142, 163-199: one node of a copy; `f` copies a value.
Simplification: the code copies breadth first and for a while the new nodes share the old
child lists; every node is built by the same statements in either order, so the model uses
plain recursion.  The new child list is filled by `comps_hslist_append` only. -/
def cloneNode (f : V → V) : Node V → Node V
  | .mk key data sub _ => Node.ofList key (data.map f) (HSList.ofAppends (cloneList f sub))
/-- comps_objradix.c:127-139, 184-196: the nodes of one child list. -/
def cloneList (f : V → V) : List (Node V) → List (Node V)
  | [] => []
  | n :: ns => cloneNode f n :: cloneList f ns
end

/-- comps_objradix.c:91-145 `comps_objrtree_clone`; `f` is `comps_object_copy`. -/
def clone (f : V → V) (t : RTree V) : RTree V :=
  ⟨HSList.ofAppends (cloneList f t.subnodes.items), t.len⟩

/-- comps_objradix.c:146-202 `comps_objrtree_copy` (what `comps_object_copy` runs on a
dictionary); `len` is set to 0 at line 158 and never changed.  With `f = id` this is also
`comps_objrtree_copy_shallow`, 205-260. -/
def copy (f : V → V) (t : RTree V) : RTree V :=
  ⟨HSList.ofAppends (cloneList f t.subnodes.items), 0⟩

/-- comps_objradix.c:707-737: the inner loop of `comps_objrtree_unite` over one child list with
full key `k`: every node with data is set in `rt1`. -/
def uniteItems (lt : UInt8 → UInt8 → Bool) (k : Bytes) (l : List (Node V)) (t : RTree V) :
    RTree V :=
  l.foldl (fun t n => match n.data with
    | some v => t.set lt (k ++ n.key) (some v)
    | none => t) t

/-- comps_objradix.c:699-740: the queue loop of `comps_objrtree_unite`; child lists with a first
item are queued. The first argument bounds the iterations. -/
def uniteLoop (lt : UInt8 → UInt8 → Bool) : Nat → List (Bytes × List (Node V)) → RTree V → RTree V
  | 0, _, t => t
  | _ + 1, [], t => t
  | fuel + 1, (k, l) :: queue, t =>
    uniteLoop lt fuel
      (queue ++ (l.filter fun n => !n.sub.isEmpty).map fun n => (k ++ n.key, n.sub))
      (uniteItems lt k l t)

/-- comps_objradix.c:683-742 `comps_objrtree_unite`, for two different trees. -/
def unite (lt : UInt8 → UInt8 → Bool) (t1 t2 : RTree V) : RTree V :=
  uniteLoop lt (listCount t2.subnodes.items + 1) [([], t2.subnodes.items)] t1

/-- comps_objradix.c:744-749 `comps_objrtree_union`: a clone of the first operand, then unite.
Values of the second operand are shared, not copied (line 728). -/
def union (lt : UInt8 → UInt8 → Bool) (f : V → V) (t1 t2 : RTree V) : RTree V :=
  unite lt (clone f t1) t2

/-- comps_objradix.c:286-294 `comps_objrtree_paircmp`; `vcmp` is `comps_object_cmp`. -/
def paircmp (vcmp : V → V → Bool) (a b : Bytes × V) : Bool :=
  if a.1 ≠ b.1 then false else vcmp a.2 b.2

/-- comps_objradix.c:297-337 `comps_objrtree_cmp`: two sets of pairs, compared by
`comps_set_cmp`. -/
def cmp (vcmp : V → V → Bool) (t1 t2 : RTree V) : Bool :=
  CSet.cmp (paircmp vcmp) (t1.pairs.foldl (CSet.add (paircmp vcmp)) [])
    (t2.pairs.foldl (CSet.add (paircmp vcmp)) []) == 0

end RTree
end Comps
