import Verif.Model.RTree
import Verif.Model.Text
import Verif.Model.Validate

/-!
# Strings, numbers, packages and group ids

`/repo/libcomps/src/comps_obj.c`, `comps_docpackage.c`, `comps_docgroupid.c`.

Objects are values here: sharing and reference counts are modelled in `Verif/Model/RefC.lean`,
and the cells of object lists in `Verif/Model/ObjHeap.lean`; the lists of this file are the
sequences that model is proved to implement.  A NULL object pointer is `none`.
-/

namespace Comps
namespace Obj
open Comps.Text

/-- comps_obj.h `COMPS_Str`: the field `val`, which may be NULL. -/
structure CStr where
  val : Option Bytes
  deriving DecidableEq, Repr

/-- comps_obj.c:163-171 `comps_str`. -/
def compsStr (s : Option Bytes) : CStr := ⟨s⟩

/-- comps_obj.c:121-129 `comps_str_copy_u`. -/
def CStr.copy (s : CStr) : CStr :=
  match s.val with
  | some b => ⟨some b⟩
  | none => ⟨none⟩

/-- comps_obj.c:147-154 `comps_str_cmp_u`. -/
def CStr.cmp (a b : CStr) : Bool :=
  match a.val, b.val with
  | none, none => true
  | some x, some y => x == y
  | _, _ => false

/-- comps_obj.c:48-58 `comps_object_cmp` on two objects of one type whose comparison is `f`. -/
def objCmp {α : Type} (f : α → α → Bool) : Option α → Option α → Bool
  | none, none => true
  | some a, some b => f a b
  | _, _ => false

/-- comps_obj.c:32-41 `comps_object_copy` on an object whose copy function is `f`. -/
def objCopy {α : Type} (f : α → α) : Option α → Option α
  | none => none
  | some a => some (f a)

/-- comps_objlist.c:416-430 `comps_objlist_cmp`. -/
def listCmp {α : Type} (f : α → α → Bool) : List α → List α → Bool
  | [], [] => true
  | a :: as, b :: bs => if f a b then listCmp f as bs else false
  | _, _ => false

/-- comps_objlist.c:42-53 `comps_objlist_copy`: items are copied one by one. -/
def listCopy {α : Type} (f : α → α) (l : List α) : List α := l.map f

/-- The values kept in the dictionaries of groups, categories and environments: strings
(comps_utils.h:59), numbers (comps_utils.h:78) and the list of architectures
(comps_utils.h:165-169), whose items are strings (comps_elem.c:437-447). -/
inductive PVal where
  | str (s : CStr)
  | num (n : Int)
  | list (l : List CStr)
  deriving DecidableEq, Repr

/-- comps_obj.c:48-58 `comps_object_cmp` on two values: the comparison function of the first
is called (comps_obj.c:109-111, 147-154, comps_objlist.c:416-430).  When the second value is of
another type the function reads it through the wrong structure. -/
def PVal.cmpR : PVal → PVal → Res Bool
  | .str a, .str b => .ok (a.cmp b)
  | .num a, .num b => .ok (a == b)
  | .list a, .list b => .ok (listCmp CStr.cmp a b)
  | _, _ => .error .typeConfusion

/-- comps_obj.c:48-58 as used by sets and dictionaries, whose model takes a total function.
Mixed types are a fault (`cmpR`); here they give `false`.  `Props/Group.lean` shows that
objects built through the typed setters are never compared across types. -/
def PVal.cmp (a b : PVal) : Bool :=
  match cmpR a b with
  | .ok r => r
  | .error _ => false

/-- comps_obj.c:32-41 `comps_object_copy` on a value (comps_obj.c:88-90, 121-129,
comps_objlist.c:42-53). -/
def PVal.copy : PVal → PVal
  | .str s => .str s.copy
  | .num n => .num n
  | .list l => .list (listCopy CStr.copy l)

/-- comps_docpackage.h `COMPS_DocGroupPackage`.  The field `type` is an enum; values outside
the enum (possible through `comps_docpackage_set_type_i`) are not modelled. -/
structure Package where
  name : Option CStr
  requires : Option CStr
  basearchonly : Option Int
  arches : Option (List CStr)
  type : PkgType
  deriving DecidableEq, Repr

namespace Package

/-- comps_docpackage.c:22-29 `comps_docpackage_create`. -/
def create : Package := ⟨none, none, none, none, .unknown⟩

/-- comps_docpackage.c:32-42 `comps_docpackage_copy`. -/
def copy (p : Package) : Package :=
  ⟨objCopy CStr.copy p.name, objCopy CStr.copy p.requires, objCopy id p.basearchonly,
    objCopy (listCopy CStr.copy) p.arches, p.type⟩

/-- comps_docpackage.c:53-58 `comps_docpackage_set_name`. -/
def setName (p : Package) (s : Option Bytes) : Package := { p with name := some (compsStr s) }
/-- comps_docpackage.c:60-62 `comps_docpackage_get_name`. -/
def getName (p : Package) : Option CStr := p.name
/-- comps_docpackage.c:64-69 `comps_docpackage_set_requires`. -/
def setRequires (p : Package) (s : Option Bytes) : Package :=
  { p with requires := some (compsStr s) }
/-- comps_docpackage.c:71-73 `comps_docpackage_get_requires`. -/
def getRequires (p : Package) : Option CStr := p.requires
/-- comps_docpackage.c:75-82 `comps_docpackage_set_basearchonly`; `unset` is ignored. -/
def setBasearchonly (p : Package) (b : Int) (_unset : Bool) : Package :=
  { p with basearchonly := some b }
/-- comps_docpackage.c:84-86 `comps_docpackage_get_basearchonly`. -/
def getBasearchonly (p : Package) : Option Int := p.basearchonly
/-- comps_docpackage.c:88-97 `comps_docpackage_set_type_i`, `comps_docpackage_set_type`;
`unset` is ignored. -/
def setType (p : Package) (t : PkgType) (_unset : Bool) : Package := { p with type := t }
/-- comps_docpackage.c:99-101 `comps_docpackage_get_type` (the number of the enum value). -/
def getType (p : Package) : PkgType := p.type
/-- comps_docpackage.c:233-235 `comps_docpackage_arches`. -/
def getArches (p : Package) : Option (List CStr) := p.arches
/-- comps_docpackage.c:236-240 `comps_docpackage_set_arches`. -/
def setArches (p : Package) (l : Option (List CStr)) : Package := { p with arches := l }

/-- comps_docpackage.c:104-118 `comps_docpackage_cmp_u`. -/
def cmp (a b : Package) : Bool :=
  if !objCmp CStr.cmp a.name b.name then false else
  if !objCmp CStr.cmp a.requires b.requires then false else
  if a.type ≠ b.type then false else true

/-- comps_docpackage.c:138-141 `comps_docpackage_cmp_set` (and 120-123
`__comps_docpackage_idcmp`). -/
def cmpSet (a b : Package) : Bool := objCmp CStr.cmp a.name b.name

end Package

/-- comps_docgroupid.h `COMPS_DocGroupId`. -/
structure GroupId where
  name : Option CStr
  dflt : Bool
  arches : Option (List CStr)
  deriving DecidableEq, Repr

namespace GroupId

/-- comps_docgroupid.c:21-27 `comps_docgroupid_create`. -/
def create : GroupId := ⟨none, false, none⟩

/-- comps_docgroupid.c:30-35 `comps_docgroupid_copy`. -/
def copy (g : GroupId) : GroupId :=
  ⟨objCopy CStr.copy g.name, g.dflt, objCopy (listCopy CStr.copy) g.arches⟩

/-- comps_docgroupid.c:45-47 `comps_docgroupid_get_name`. -/
def getName (g : GroupId) : Option CStr := g.name
/-- comps_docgroupid.c:48-53 `comps_docgroupid_set_name`. -/
def setName (g : GroupId) (s : Option Bytes) : GroupId := { g with name := some (compsStr s) }
/-- comps_docgroupid.c:55-57 `comps_docgroupid_get_default`. -/
def getDefault (g : GroupId) : Int := if g.dflt then 1 else 0
/-- comps_docgroupid.c:58-60 `comps_docgroupid_set_default`. -/
def setDefault (g : GroupId) (d : Int) : GroupId := { g with dflt := d != 0 }
/-- comps_docgroupid.c:62-64 `comps_docgroupid_arches`. -/
def getArches (g : GroupId) : Option (List CStr) := g.arches
/-- comps_docgroupid.c:65-69 `comps_docgroupid_set_arches`. -/
def setArches (g : GroupId) (l : Option (List CStr)) : GroupId := { g with arches := l }

/-- comps_docgroupid.c:71-86 `comps_docgroupid_cmp_u`. -/
def cmp (a b : GroupId) : Bool :=
  if !objCmp CStr.cmp a.name b.name then false else
  if a.dflt ≠ b.dflt then false else true

/-- comps_docgroupid.c:88-91 `__comps_docgroupid_cmp_set`. -/
def cmpSet (a b : GroupId) : Bool := objCmp CStr.cmp a.name b.name

end GroupId

/-! ## Helpers shared by groups, categories and environments -/

/-- comps_utils.c:76-84 `__comps_objlist_intersected`. -/
def intersected (l1 l2 : List CStr) : Bool := l1.any fun a => l2.any fun b => a.cmp b

/-- comps_docgroup.c:441-442, comps_doccategory.c:359-360, comps_docenv.c:461-462,
comps_doc.c:847-848: is an entry with architecture list `arches2` kept? -/
def archKeep (arches : List CStr) (arches2 : Option (List CStr)) : Bool :=
  match arches2 with
  | none => true
  | some l => intersected arches l

/-- comps_objlist.c:250-271 `comps_objlist_remove_at`; the argument is `unsigned`, compared as
`int`, so -1 removes nothing. -/
def removeAt {α : Type} (l : List α) : Int → List α
  | .ofNat i => l.eraseIdx i
  | .negSucc _ => l

/-- comps_objlist.c:205-240 `comps_objlist_insert_at_x`; a position above the length (so also
-1 as `unsigned`) is refused. -/
def insertAt {α : Type} (l : List α) : Int → α → List α
  | .ofNat i, x => if l.length < i then l else l.take i ++ x :: l.drop i
  | .negSucc _, _ => l

/-- A set of object pointers compared by `eqf` on the objects (comps_docgroup.c:179-180,
comps_doccategory.c:138-139, comps_docenv.c:164-165). -/
def refEq {α : Type} (eqf : α → α → Bool) (a b : Val.Ref α) : Bool := eqf a.val b.val

/-- comps_docgroup.c:181-186, comps_doccategory.c:140-145, comps_docenv.c:166-171: copies of the
first operand's items.  Copies are new objects; the model numbers them 0, 1, 2, ... -/
def unionFirst {α : Type} (copy : α → α) : Nat → List α → List (Val.Ref α)
  | _, [] => []
  | n, x :: xs => ⟨n, copy x⟩ :: unionFirst copy (n + 1) xs

/-- comps_docgroup.c:189-200, comps_doccategory.c:146-157, comps_docenv.c:172-183, 202-213: the
loop over the second operand's items.  `n` is the address of the next new object. -/
def unionLoop {α : Type} (eqf : α → α → Bool) (copy : α → α) (set : List (Val.Ref α)) :
    Nat → List α → List (Val.Ref α) → List (Val.Ref α)
  | _, [], res => res
  | n, y :: ys, res =>
    match CSet.dataAt (refEq eqf) set ⟨n, y⟩ with
    | some d =>
      let index := Val.index res d.addr
      unionLoop eqf copy set (n + 1) ys (insertAt (removeAt res index) index ⟨n, copy y⟩)
    | none => unionLoop eqf copy set (n + 1) ys (res ++ [⟨n, copy y⟩])

/-- The list part of comps_docgroup.c:168-207 (`comps_docgroup_union`), comps_doccategory.c:124-164
and comps_docenv.c:151-220: both operand lists may be NULL.  The set is filled from the copies
in order.  Simplification: copies dropped because their address was not found are leaked in
the C code; the model forgets them (`Verif/Model/Own.lean` counts them, C130). -/
def unionList {α : Type} (eqf : α → α → Bool) (copy : α → α) (l1 l2 : Option (List α)) :
    List α :=
  let first := unionFirst copy 0 (l1.getD [])
  let set := first.foldl (CSet.add (refEq eqf)) []
  (unionLoop eqf copy set first.length (l2.getD []) first).map Val.Ref.val

/-- The list part of `comps_docgroup_intersect` (comps_docgroup.c:242-253) and
`comps_doccategory_intersect` (comps_doccategory.c:195-205): `list->first` of a NULL list is a
fault. -/
def intersectList {α : Type} (eqf : α → α → Bool) (copy : α → α) (l1 l2 : Option (List α)) :
    Res (List α) :=
  match l1 with
  | none => .error .nullDeref
  | some a =>
    let set := a.foldl (CSet.add eqf) []
    match l2 with
    | none => .error .nullDeref
    | some b => .ok ((b.filter fun y => CSet.mem eqf set y).map copy)

/-- The list part of `comps_docenv_intersect`, comps_docenv.c:248-267 and 269-288: as above, but
the common items go through a second set. -/
def intersectListSet {α : Type} (eqf : α → α → Bool) (copy : α → α) (l1 l2 : Option (List α)) :
    Res (List α) :=
  match l1 with
  | none => .error .nullDeref
  | some a =>
    let set := a.foldl (CSet.add eqf) []
    match l2 with
    | none => .error .nullDeref
    | some b =>
      let set2 := (b.filter fun y => CSet.mem eqf set y).foldl (CSet.add eqf) []
      .ok (set2.map copy)

/-- The property part of the intersections (comps_docgroup.c:219-237, comps_doccategory.c:176-193,
comps_docenv.c:230-246): pairs of the second operand found in the set of pairs of the first are
written into a new dictionary. -/
def intersectProps (lt : UInt8 → UInt8 → Bool) (p1 p2 : RTree PVal) : RTree PVal :=
  let set := p1.pairs.foldl (CSet.add (RTree.paircmp PVal.cmp)) []
  p2.pairs.foldl (fun t e =>
    if CSet.mem (RTree.paircmp PVal.cmp) set e then t.set lt e.1 (some e.2) else t) RTree.create

/-- comps_utils.h:52-62 `COMPS_STRPROP_SETTER`: NULL changes nothing. -/
def setStrProp (lt : UInt8 → UInt8 → Bool) (key : Bytes) (props : RTree PVal)
    (s : Option Bytes) : RTree PVal :=
  match s with
  | some b => props.set lt key (some (.str (compsStr (some b))))
  | none => props

/-- comps_utils.h:69-80 `COMPS_NUMPROP_SETTER`. -/
def setNumProp (lt : UInt8 → UInt8 → Bool) (key : Bytes) (props : RTree PVal) (n : Int)
    (unset : Bool) : RTree PVal :=
  if unset then props.set lt key none else props.set lt key (some (.num n))

/-- comps_utils.h:165-169 `COMPS_DOCOBJ_SETARCHES`. -/
def setArchesProp (lt : UInt8 → UInt8 → Bool) (props : RTree PVal) (l : Option (List CStr)) :
    RTree PVal :=
  props.set lt b!"arches" (l.map .list)

/-- comps_utils.h:158-161 `COMPS_DOCOBJ_GETARCHES`; the cast of a value of another type is a
fault as soon as the list is used. -/
def getArchesProp (props : RTree PVal) : Res (Option (List CStr)) :=
  match props.get b!"arches" with
  | none => .ok none
  | some (.list l) => .ok (some l)
  | some _ => .error .typeConfusion

/-- A value used as `COMPS_Str` (comps_doc.c:489-515 and the XML writers); a value of another
type is a fault. -/
def asStr : Option PVal → Res (Option CStr)
  | none => .ok none
  | some (.str s) => .ok (some s)
  | some _ => .error .typeConfusion

end Obj
end Comps
