import Verif.Model.MRTree

/-!
# Walking the values of a multi-dictionary

`/repo/libcomps/src/comps_objmradix.c`:93-117, with the wrapper comps_objdict.c:91-94.
-/

namespace Comps.MTree
variable {V : Type}

/-- comps_objmradix.c:110-113: the loop over the value list of one node.  It reads the cells of the list
(comps_objlist.h:34-37, first the object, then the next cell) as cells of another kind of list
(comps_hslist.h:25-28, first the next cell, then the value).  So the first cell passes its successor to the
caller, and the object is then read as a cell.  The value lists hold no NULL. -/
def walkCells : List (MVal V) → Res (List (MVal V))
  | [] => .ok []
  | _ :: _ => .error .typeConfusion

/-- comps_objmradix.c:105-114: the value lists of the nodes, one after another. -/
def walkLists : List (List (MVal V)) → Res (List (MVal V))
  | [] => .ok []
  | l :: ls => do
    let a ← walkCells l
    let b ← walkLists ls
    .ok (a ++ b)

/-- comps_objmradix.c:93-117 `comps_objmrtree_values_walk`, comps_objdict.c:91-94
`comps_objmdict_values_walk`: what is passed to the function, in order.  The nodes are visited as in
comps_objradix.c:262-284. -/
def valuesWalk (t : MTree V) : Res (List (MVal V)) := walkLists (RTree.valuesWalk t)

end Comps.MTree
