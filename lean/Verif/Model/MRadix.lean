import Verif.Model.MRTree
import Verif.Model.BRadix

/-!
# The plain multi-dictionary `COMPS_MDict` / `COMPS_MRTree`

`/repo/libcomps/src/comps_mradix.c`, with the wrappers of `comps_dict.c`:76-128.  The tree is the one of
`comps_objmradix.c` (`Verif/Model/MRTree.lean`) with lists of pointers as data.

`V` is the type of pointers, NULL is `none`.  A value list is a list of `MVal (Option V)`: a pointer, or a
pointer to a value list that was stored as if it were a value (lines 386-407).  The value list of a node is
`none` if `data` of the node is NULL.  Operations return, besides the new tree, the pointers they pass to
the destructor, in order.  Allocations succeed.
-/

namespace Comps
namespace MRadix
open Comps.Radix (Calls Store newData dropList dropNode)
variable {V : Type}

/-- An element of a value list (comps_mradix.h `COMPS_MRTreeData.data`). -/
abbrev Elem (V : Type) := MVal (Option V)

/-- comps_mradix.h `COMPS_MRTreeData`; a NULL `data` is `none`. -/
abbrev MN (V : Type) := Node (List (Elem V))

/-- comps_mradix.h `COMPS_MRTree.subnodes`. -/
abbrev MStore (V : Type) := Store (List (Elem V))

/-- comps_mradix.c:64-80 `comps_mrtree_create`, comps_dict.c:76-81. -/
def create : MStore V := .live HSList.empty

/-- comps_mradix.c:46-50: the value list of a new node; NULL is not added. -/
def fresh (v : Option V) : List (Elem V) :=
  match v with
  | some p => [.one (some p)]
  | none => []

/-- comps_mradix.c:46-50, 387, 397, 406: the value list of a new node that is given the value list
of another one as its value. -/
def wrap (d : Option (List (Elem V))) : List (Elem V) :=
  match d with
  | some l => [.nested l]
  | none => []

/-- comps_mradix.c:325-416 `__comps_mrtree_set`, the `while (offset != len)` loop.  The key is cut at
`len`; `rest` is the part of the string after it, which lines 355, 372-376 and 390-405 use.
Lines 376-377: `_len` may be longer than the key of the node, which makes the size a huge number. -/
def setLoop (v : Option V) (rest : Bytes) :
    Nat → Bytes → HSList (MN V) → Res (HSList (MN V))
  | 0, _, l => .ok l
  | _ + 1, [], l => .ok l
  | fuel + 1, b :: bs, l =>
    match RTree.findAt b l.items with
    | none => .ok (l.append (Node.leaf (b :: bs ++ rest) (some (fresh v))))  -- 354-357
    | some (i, n) =>
      match RTree.matchKey n.key (b :: bs) with
      | .both _ =>                                       -- 367-369; nothing is added to a NULL list
        .ok (l.setAt i (Node.mk n.key (n.data.map fun d => d ++ [.one v]) n.sub n.tail))
      | .keyEnds _ =>                                    -- 370-382
        if n.key.length < (b :: bs ++ rest).length then .error .outOfBounds else
        let moved := Node.mk (n.key.drop (b :: bs ++ rest).length) n.data n.sub n.tail
        .ok ((l.removeAt i).append (Node.mk (b :: bs ++ rest) (some (fresh v)) [moved] true))
      | .nodeEnds x => do                                -- 383-385
        let s ← setLoop v rest fuel ((b :: bs).drop x) n.subnodes
        .ok (l.setAt i (Node.ofList n.key n.data s))
      | .differ x =>                                     -- 386-413
        let old := Node.mk (n.key.drop x) (some (wrap n.data)) n.sub n.tail
        let new := Node.leaf ((b :: bs).drop x ++ rest) (some (fresh v))
        let subs :=
          if RTree.strGt ((b :: bs).drop x ++ rest) (n.key.drop x)
          then (HSList.empty.append old).append new
          else (HSList.empty.append new).append old
        .ok (l.setAt i (Node.ofList (n.key.take x) none subs))

/-- comps_mradix.c:418-421 `comps_mrtree_set`, comps_dict.c:90-92 `comps_mdict_set`. -/
def set (c : Calls V) (s : MStore V) (key : Bytes) (data : Option V) : Res (MStore V) := do
  let l ← s.list
  let r ← setLoop (newData c data) [] key.length key l
  .ok (.live r)

/-- comps_mradix.c:423-426 `comps_mrtree_set_n`, comps_dict.c:94-97 `comps_mdict_set_n`, for
`len ≤ strlen(key)`. -/
def setN (c : Calls V) (s : MStore V) (key : Bytes) (len : Nat) (data : Option V) :
    Res (MStore V) := do
  let l ← s.list
  let r ← setLoop (newData c data) (key.drop len) (key.take len).length (key.take len) l
  .ok (.live r)

/-- comps_mradix.c:467-504 `comps_mrtree_getp`, comps_dict.c:102-104: what the address that is returned
points to (`some none` is NULL), or NULL (`none`).  As in `RTree.getLoop` the first argument bounds the
iterations. -/
def getpLoop : Nat → Bytes → List (MN V) → Option (Option (List (Elem V)))
  | 0, _, _ => none
  | _ + 1, [], _ => none
  | fuel + 1, b :: bs, items =>
    match RTree.findAt b items with
    | none => none
    | some (_, n) =>
      match RTree.matchKey n.key (b :: bs) with
      | .both _ => some n.data
      | .nodeEnds x => getpLoop fuel ((b :: bs).drop x) n.sub
      | .keyEnds _ => none
      | .differ _ => none

/-- comps_mradix.c:467-504 `comps_mrtree_getp`. -/
def getp (s : MStore V) (key : Bytes) : Res (Option (Option (List (Elem V)))) := do
  let l ← s.list
  .ok (getpLoop key.length key l.items)

/-- comps_mradix.c:428-465 `comps_mrtree_get`, comps_dict.c:99-101: the value list; NULL is `none`. -/
def get (s : MStore V) (key : Bytes) : Res (Option (List (Elem V))) := do
  let l ← s.list
  .ok (RTree.getLoop key.length key l.items)

/-- comps_hslist.c:185-204 `comps_hslist_destroy`, 254-272 `comps_hslist_clear`: every element of a value
list is passed to the destructor, if there is one; a destructor that is given a value list
takes it for one of the values. -/
def dropVals (c : Calls V) (l : List (Elem V)) : Res (List (Option V)) :=
  if c.dtor then
    l.mapM fun e => match e with
      | .one p => .ok p
      | .nested _ => .error .typeConfusion
  else .ok []

/-- comps_mradix.c:506-600 `comps_mrtree_unset`, the loop.  560-582: as in `MTree.unsetLoop` a parent that
has no subnodes left is freed and then used.  What is printed (549, 555, 569) is left out. -/
def unsetLoop (c : Calls V) : Nat → Bool → Bytes → HSList (MN V) →
    Res (Option (HSList (MN V) × List (Option V)))
  | 0, _, _, _ => .ok none
  | _ + 1, _, [], _ => .ok none
  | fuel + 1, nested, b :: bs, l =>
    match RTree.findAt b l.items with
    | none => .ok none
    | some (i, n) =>
      match RTree.matchKey n.key (b :: bs) with
      | .both _ => do
        let s := if n.tail then l.setAt i (Node.mk n.key (n.data.map fun _ => []) n.sub n.tail)
          else l.removeAt i
        let d ← if n.tail then dropVals c (n.data.getD []) else dropVals c (dropNode n).flatten
        if nested && !s.tailSet then .error .useAfterFree else .ok (some (s, d))
      | .nodeEnds x => do
        let r ← unsetLoop c fuel true ((b :: bs).drop x) n.subnodes
        match r with
        | none => .ok none
        | some s => .ok (some (l.setAt i (Node.ofList n.key n.data s.1), s.2))
      | .keyEnds _ => .ok none
      | .differ _ => .ok none

/-- comps_mradix.c:506-600 `comps_mrtree_unset`, comps_dict.c:105-107. -/
def unset (c : Calls V) (s : MStore V) (key : Bytes) : Res (MStore V × List (Option V)) := do
  let l ← s.list
  let r ← unsetLoop c key.length false key l
  match r with
  | none => .ok (s, [])
  | some r => .ok (.live r.1, r.2)

/-- comps_mradix.c:602-619 `comps_mrtree_clear`, comps_dict.c:108-110: the cells are freed, `first` and
`last` are left as they are. -/
def clear (c : Calls V) (s : MStore V) : Res (MStore V × List (Option V)) := do
  let l ← s.list
  match l.items with
  | [] => .ok (s, [])
  | _ :: _ => do
    let d ← dropVals c (dropList l.items).flatten
    .ok (.dangling, d)

/-- comps_mradix.c:82-85 `comps_mrtree_destroy` with 23-28 `comps_mrtree_data_destroy`,
comps_dict.c:83-88: the values of a node, then its subnodes.  `Radix.dropList` gives the value lists
in this order; a NULL list has no elements (comps_hslist.c:188). -/
def destroy (c : Calls V) (s : MStore V) : Res (List (Option V)) := do
  let l ← s.list
  dropVals c (dropList l.items).flatten

mutual
/-- Whether `data` is NULL in a node or below it (comps_mradix.c:395 is where it is set to NULL). -/
def nodeNull : MN V → Bool
  | .mk _ data sub _ => data.isNone || listNull sub
/-- The same for a list of nodes. -/
def listNull : List (MN V) → Bool
  | [] => false
  | n :: ns => nodeNull n || listNull ns
end

/-- comps_mradix.c:110, 220, 293: every node is visited and `data->first` is read.
Simplification: what was done before the fault is left out. -/
def lists (l : HSList (MN V)) : Res Unit :=
  if listNull l.items then .error .nullDeref else .ok ()

/-- comps_mradix.c:95-119 `comps_mrtree_values_walk`, comps_dict.c:111-114: what is passed to the
callback, in order. -/
def values (s : MStore V) : Res (List (Elem V)) := do
  let l ← s.list
  lists l
  .ok (RTree.valuesWalk ⟨l, 0⟩).flatten

/-- The keys with their value lists in the order in which comps_mradix.c:190-243 and 266-321 visit
them (the queue of `comps_brtree_keys`). -/
def visited (l : HSList (MN V)) : List (Bytes × List (Elem V)) :=
  BRadix.allLoop (RTree.listCount l.items + 1) [([], l.items)]

/-- comps_mradix.c:247-323 `comps_mrtree_keys`, comps_dict.c:123-125: keys with an empty list are left
out (293). -/
def keys (s : MStore V) : Res (List Bytes) := do
  let l ← s.list
  lists l
  .ok (((visited l).filter fun e => !e.2.isEmpty).map Prod.fst)

/-- comps_mradix.c:174-245 `comps_mrtree_unite`, comps_dict.c:126-128, for two different trees: every
element of every list is set in the first tree (223).  A value list among the elements (which is
then given to the constructor or shared by the trees) is a fault here. -/
def unite (c : Calls V) (s1 s2 : MStore V) : Res (MStore V) := do
  let l ← s2.list
  lists l
  (visited l).foldlM (fun s e => e.2.foldlM (fun s x => match x with
    | .one p => set c s e.1 p
    | .nested _ => .error .typeConfusion) s) s1

/-- comps_hslist.c:249: one element given to the cloner.  Simplification: a cloner that is given NULL,
and a NULL cloner that is called, are a fault. -/
def cloneElem (c : Calls V) (e : Elem V) : Res (Elem V) :=
  match c.cloner, e with
  | some f, .one (some p) => .ok (.one (some (f p)))
  | some _, .one none => .error .nullDeref
  | some _, .nested _ => .error .typeConfusion
  | none, _ => .error .nullDeref

/-- `cloneElem` where it does not fail. -/
def cloned (c : Calls V) (e : Elem V) : Elem V :=
  match cloneElem c e with
  | .ok e' => e'
  | .error _ => e

/-- comps_mradix.c:121-172 `comps_mrtree_clone`, comps_dict.c:116-121, with comps_hslist.c:240-252
`comps_hslist_clone`, which reads the list it is given.  As in `RTree.cloneNode` the nodes are made by
plain recursion; the fault is the one of the first element at fault in the order of `dropList`. -/
def clone (c : Calls V) (s : MStore V) : Res (MStore V) := do
  let l ← s.list
  lists l
  let _ ← (dropList l.items).flatten.mapM (cloneElem c)
  .ok (.live (HSList.ofAppends (RTree.cloneList (List.map (cloned c)) l.items)))

end MRadix
end Comps
