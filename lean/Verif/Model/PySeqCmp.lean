import Verif.Model.PyElem

/-!
# Comparison operators of Python lists

`PyCOMPSSeq_cmp` of `/repo/libcomps/src/python/src/pycomps_sequence.c`, which is `tp_richcompare` of the
lists of groups, categories, environments, packages and group ids, and (inherited) of the lists of strings.
-/

namespace Comps.PySeqCmp
open Comps.Obj Comps.PyElem

/-- A member of a Python list (comps_objlist.h `COMPS_ObjListIt.comps_obj`) with its class. -/
inductive Member where
  | group (g : Group)
  | category (c : Category)
  | env (e : Env)
  | package (p : Pkg)
  | gid (g : GroupId)
  | str (s : CStr)

/-- comps_obj.c:48-58 `comps_object_cmp` of two members: the function of the first one's class is called,
and takes the second one for an object of this class (comps_docgroup.c:124-126, comps_utils.h:133-137). -/
def Member.cmp : Member → Member → Res Bool
  | .group a, .group b => .ok (a.cmp b)
  | .category a, .category b => .ok (a.cmp b)
  | .env a, .env b => .ok (a.cmp b)
  | .package a, .package b => .ok (a.cmp b)
  | .gid a, .gid b => .ok (a.cmp b)
  | .str a, .str b => .ok (CStr.cmp a b)
  | _, _ => .error .typeConfusion

/-- comps_objlist.c:416-430 `comps_objlist_cmp`. -/
def listCmp : List Member → List Member → Res Bool
  | [], [] => .ok true
  | a :: as, b :: bs => do
    if ← a.cmp b then listCmp as bs else .ok false
  | _, _ => .ok false

/-- What stands on the other side. -/
inductive Operand where
  /-- a list of this library, of any class -/
  | list (l : List Member)
  /-- anything else -/
  | other

/-- pycomps_sequence.c:566-577 `PyCOMPSSeq_cmp`.  The other side is taken for a list of this library
whatever it is (569).  `<` and the like are answered with `False` (574-576). -/
def seqCmp (op : CmpOp) (self : List Member) : Operand → Res Bool
  | .other => .error .typeConfusion
  | .list l => do
    let res ← listCmp self l
    match op with
    | .eq => .ok res
    | .ne => .ok (!res)
    | .order => .ok false

end Comps.PySeqCmp
