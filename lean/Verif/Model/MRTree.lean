import Verif.Model.RTree

/-!
# The multi-dictionary `COMPS_ObjMDict` / `COMPS_ObjMRTree`

`/repo/libcomps/src/comps_objmradix.c`, with the wrappers of `comps_objdict.c`:67-121.

The node type is the one of the dictionary, with a value list as data
(`COMPS_ObjMRTreeData` has the same fields; `data` is a list and never NULL).
-/

namespace Comps

/-- An element of a value list: an object, or a whole value list that was wrapped as an element
(comps_objmradix.c:433-451 pass the old value list as the `data` object of a new node). -/
inductive MVal (V : Type) where
  | one (v : V)
  | nested (l : List (MVal V))

/-- comps_objmradix.h `COMPS_ObjMRTreeData`. -/
abbrev MNode (V : Type) := Node (List (MVal V))

/-- comps_objmradix.h `COMPS_ObjMRTree`. -/
abbrev MTree (V : Type) := RTree (List (MVal V))

namespace MTree
variable {V : Type}

/-- comps_objmradix.c:71-84 `comps_objmrtree_create`. -/
def create : MTree V := ⟨HSList.empty, 0⟩

/-- comps_objmradix.c:362-460 `__comps_objmrtree_set`, the `while (offset != len)` loop, for
`len == strlen(key)` (`comps_objmrtree_set`, `comps_objmrtree_set_x`).  `v` is what is added to a value
list: the new value, or nothing for a NULL that is taken away again (a new node is given no element for
it, lines 50-51; line 402 does add it to a list that exists).
The bound on iterations is as in `RTree.setLoop`. -/
def setLoop (v : List (MVal V)) : Nat → Bytes → HSList (MNode V) → HSList (MNode V)
  | 0, _, l => l
  | _ + 1, [], l => l
  | fuel + 1, c :: cs, l =>
    match RTree.findAt c l.items with
    | none => l.append (Node.leaf (c :: cs) (some v))     -- 387-391
    | some (i, n) =>
      match RTree.matchKey n.key (c :: cs) with
      | .both _ =>                                          -- 401-404
        l.setAt i (Node.mk n.key (some (n.data.getD [] ++ v)) n.sub n.tail)
      | .keyEnds x =>                                       -- 405-419
        let moved := Node.mk (n.key.drop x) n.data n.sub n.tail
        (l.removeAt i).append (Node.mk (c :: cs) (some v) [moved] true)
      | .nodeEnds x =>                                      -- 420-422
        l.setAt i (Node.ofList n.key n.data (setLoop v fuel ((c :: cs).drop x) n.subnodes))
      | .differ x =>                                        -- 423-456
        let old := Node.mk (n.key.drop x) (some [MVal.nested (n.data.getD [])]) n.sub n.tail
        let new := Node.leaf ((c :: cs).drop x) (some v)
        let subs :=
          if RTree.strGt ((c :: cs).drop x) (n.key.drop x)
          then (HSList.empty.append old).append new
          else (HSList.empty.append new).append old
        l.setAt i (Node.ofList (n.key.take x) (some []) subs)

/-- comps_objmradix.c:355-460 `comps_objmrtree_set`, `comps_objmrtree_set_x`: every write of a
non-empty key adds one to `len`; with the empty key the loop is not entered. -/
def setVal (t : MTree V) (key : Bytes) (v : MVal V) : MTree V :=
  ⟨setLoop [v] key.length key t.subnodes, t.len + (if key.isEmpty then 0 else 1)⟩

/-- comps_objmradix.c:355-460 `comps_objmrtree_set` with NULL, followed by the removal of that NULL from
the value list (comps_objlist.c:273-292), as pycomps_mdict.c:253-257 does.  Correct for value lists that
hold no NULL. -/
def setNull (t : MTree V) (key : Bytes) : MTree V :=
  ⟨setLoop [] key.length key t.subnodes, t.len + (if key.isEmpty then 0 else 1)⟩

/-- `comps_objmrtree_set` with an object (not a wrapped list). -/
def set (t : MTree V) (key : Bytes) (v : V) : MTree V := setVal t key (.one v)

/-- comps_objmradix.c:467-505 `comps_objmrtree_get`: the loop is the one of
`comps_objrtree_get` (comps_objradix.c:462-508). NULL is `none`. -/
def get (t : MTree V) (key : Bytes) : Option (List (MVal V)) :=
  RTree.getLoop key.length key t.subnodes.items

/-- comps_objmradix.c:507-601 `comps_objmrtree_unset`, the loop; the second component of a
successful removal is what is taken from `len` (550, 555).  As in `RTree.unsetLoop`, lines
564-580 free the parent's child list and then use it if that list has become empty. -/
def unsetLoop : Nat → Bool → Bytes → HSList (MNode V) → Res (Option (HSList (MNode V) × Nat))
  | 0, _, _, _ => .ok none
  | _ + 1, _, [], _ => .ok none
  | fuel + 1, nested, c :: cs, l =>
    match RTree.findAt c l.items with
    | none => .ok none
    | some (i, n) =>
      match RTree.matchKey n.key (c :: cs) with
      | .both _ =>
        let s := if n.tail then l.setAt i (Node.mk n.key (some []) n.sub n.tail) else l.removeAt i
        if nested && !s.tailSet then .error .useAfterFree else .ok (some (s, (n.data.getD []).length))
      | .nodeEnds x =>
        match unsetLoop fuel true ((c :: cs).drop x) n.subnodes with
        | .error f => .error f
        | .ok none => .ok none
        | .ok (some (s, d)) => .ok (some (l.setAt i (Node.ofList n.key n.data s), d))
      | .keyEnds _ => .ok none
      | .differ _ => .ok none

/-- comps_objmradix.c:507-601 `comps_objmrtree_unset`. -/
def unset (t : MTree V) (key : Bytes) : Res (MTree V) :=
  match unsetLoop key.length false key t.subnodes with
  | .error f => .error f
  | .ok none => .ok t
  | .ok (some (s, d)) => .ok ⟨s, t.len - d⟩

/-- comps_objmradix.c:608-682 `__comps_objmrtree_all`, `comps_objmrtree_pairs`: same loop as
`__comps_objrtree_all` (comps_objradix.c:619-681). -/
def pairs (t : MTree V) : List (Bytes × List (MVal V)) := RTree.pairs t

/-- comps_objmradix.c:672-674 `comps_objmrtree_keys`. -/
def keys (t : MTree V) : List Bytes := (pairs t).map Prod.fst

/-- comps_objmradix.c:676-678 `comps_objmrtree_values`. -/
def values (t : MTree V) : List (List (MVal V)) := (pairs t).map Prod.snd

/-- comps_objmradix.c:684-701 `comps_objmrtree_clear`: the cells are freed but `first`, `last` and
`len` keep their values.  `none` stands for a tree whose `first` points to freed memory. -/
def clear (t : MTree V) : Option (MTree V) := if t.subnodes.items.isEmpty then some t else none

/-- comps_objmradix.c:467-505 `comps_objmrtree_get` on a tree that may have been cleared: the first
step reads `subnodes->first->data`. (With the empty key nothing is read.) -/
def getAfter (t : Option (MTree V)) (key : Bytes) : Res (Option (List (MVal V))) :=
  match t with
  | some t => .ok (get t key)
  | none => if key.isEmpty then .ok none else .error .useAfterFree

/-- comps_objmradix.c:119-170 `comps_objmrtree_copy` and 225-279 `comps_objmrtree_clone`: for the
first top-level node, line 134 (242) calls `comps_object_destroy` on the *address* of the field
`data`, which takes a node as an object header. -/
def copy (t : MTree V) : Res (MTree V) :=
  if t.subnodes.items.isEmpty then .ok ⟨HSList.empty, t.len⟩ else .error .typeConfusion

/-- comps_objmradix.c:305-348: the inner loop of `comps_objmrtree_unite`; every element of the value
list is added under the full key. -/
def uniteItems (k : Bytes) (l : List (MNode V)) (t : MTree V) : MTree V :=
  l.foldl (fun t n => (n.data.getD []).foldl (fun t v => setVal t (k ++ n.key) v) t) t

/-- comps_objmradix.c:298-351: the queue loop. The first argument bounds the iterations. -/
def uniteLoop : Nat → List (Bytes × List (MNode V)) → MTree V → MTree V
  | 0, _, t => t
  | _ + 1, [], t => t
  | fuel + 1, (k, l) :: queue, t =>
    uniteLoop fuel
      (queue ++ (l.filter fun n => !n.sub.isEmpty).map fun n => (k ++ n.key, n.sub))
      (uniteItems k l t)

/-- comps_objmradix.c:281-353 `comps_objmrtree_unite`, for two different trees. -/
def unite (t1 t2 : MTree V) : MTree V :=
  uniteLoop (RTree.listCount t2.subnodes.items + 1) [([], t2.subnodes.items)] t1

/-- comps_objmradix.c:703-709 `comps_objmrtree_paircmp`: the values of the first pair are compared
with themselves. -/
def paircmp (vcmp : List (MVal V) → List (MVal V) → Bool) (a b : Bytes × List (MVal V)) : Bool :=
  if a.1 ≠ b.1 then false else vcmp a.2 a.2

/-- comps_objmradix.c:711-737 `comps_objmrtree_cmp`. -/
def cmp (vcmp : List (MVal V) → List (MVal V) → Bool) (t1 t2 : MTree V) : Bool :=
  CSet.cmp (paircmp vcmp) ((pairs t1).foldl (CSet.add (paircmp vcmp)) [])
    ((pairs t2).foldl (CSet.add (paircmp vcmp)) []) == 0

end MTree
end Comps
