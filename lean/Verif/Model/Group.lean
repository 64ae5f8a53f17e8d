import Verif.Model.Obj

/-!
# Groups, categories and environments

`/repo/libcomps/src/comps_docgroup.c`, `comps_doccategory.c`, `comps_docenv.c`, with the macros of
`comps_utils.h`.  `lt` is the order of `char` (it only influences the order of dictionary nodes).

The pointers `properties`, `name_by_lang` and `desc_by_lang` are set by the constructors and never
become NULL through the API; the list pointers can be set to NULL (comps_utils.h:148-153).
-/

namespace Comps
namespace Obj
open Comps.Text

/-- comps_docgroup.h `COMPS_DocGroup`. -/
structure Group where
  props : RTree PVal
  nameByLang : RTree PVal
  descByLang : RTree PVal
  packages : Option (List Package)

namespace Group

/-- comps_docgroup.c:23-29 `comps_docgroup_create`. -/
def create : Group := ⟨RTree.create, RTree.create, RTree.create, some []⟩

/-- comps_docgroup.c:32-42 `comps_docgroup_copy`. -/
def copy (g : Group) : Group :=
  ⟨g.props.copy PVal.copy, g.nameByLang.copy PVal.copy, g.descByLang.copy PVal.copy,
    objCopy (listCopy Package.copy) g.packages⟩

/-- comps_docgroup.c:79-90 `comps_docgroup_add_package` (both arguments not NULL). -/
def addPackage (g : Group) (p : Package) : Group :=
  match g.packages with
  | none => { g with packages := some [p] }
  | some l => { g with packages := some (l ++ [p]) }

/-- comps_docgroup.c:73, comps_utils.h:141-144: getter of the package list. -/
def getPackageList (g : Group) : Option (List Package) := g.packages
/-- comps_docgroup.c:74, comps_utils.h:148-153: setter of the package list. -/
def setPackageList (g : Group) (l : Option (List Package)) : Group := { g with packages := l }

/-- comps_docgroup.c:108-118: does the package match?  `matched == matched_max`. -/
def pkgMatches (name : Option Bytes) (type : PkgType) (p : Package) : Bool :=
  let max := (if name.isSome then 1 else 0) + (if type ≠ .unknown then 1 else 0)
  let matched :=
    (if name.isSome && objCmp CStr.cmp p.name (some (compsStr name)) then 1 else 0) +
    (if type ≠ .unknown ∧ p.type = type then 1 else 0)
  matched == max

/-- comps_docgroup.c:93-121 `comps_docgroup_get_packages` (group not NULL). -/
def getPackages (g : Group) (name : Option Bytes) (type : PkgType) : List Package :=
  (g.packages.getD []).filter (pkgMatches name type)

/-- comps_docgroup.c:124-155 `comps_docgroup_cmp_u`. -/
def cmp (a b : Group) : Bool :=
  if !RTree.cmp PVal.cmp a.props b.props then false else
  if !RTree.cmp PVal.cmp a.nameByLang b.nameByLang then false else
  if !RTree.cmp PVal.cmp a.descByLang b.descByLang then false else
  if !objCmp (listCmp Package.cmp) a.packages b.packages then false else true

/-- comps_docgroup.c:157-166 `__comps_docgroup_idcmp`. -/
def idcmp (a b : Group) : Bool := objCmp PVal.cmp (a.props.get b!"id") (b.props.get b!"id")

/-- comps_docgroup.c:168-207 `comps_docgroup_union`. -/
def union (lt : UInt8 → UInt8 → Bool) (g1 g2 : Group) : Group :=
  ⟨g1.props.union lt PVal.copy g2.props,
    g1.nameByLang.union lt PVal.copy g2.nameByLang,
    g1.descByLang.union lt PVal.copy g2.descByLang,
    some (unionList Package.cmpSet Package.copy g1.packages g2.packages)⟩

/-- comps_docgroup.c:209-256 `comps_docgroup_intersect`; the language dictionaries stay as
created. -/
def intersect (lt : UInt8 → UInt8 → Bool) (g1 g2 : Group) : Res Group := do
  let pk ← intersectList Package.cmpSet Package.copy g1.packages g2.packages
  return ⟨intersectProps lt g1.props g2.props, RTree.create, RTree.create, some pk⟩

/-- comps_docgroup.c:429-449 `comps_docgroup_arch_filter`. -/
def archFilter (g : Group) (arches : List CStr) : Res Group :=
  match g.packages with
  | none => .error .nullDeref
  | some l => .ok ⟨g.props.copy PVal.copy, g.nameByLang.copy PVal.copy, g.descByLang.copy PVal.copy,
      some ((l.filter fun p => archKeep arches p.arches).map Package.copy)⟩

end Group

/-- comps_doccategory.h `COMPS_DocCategory`. -/
structure Category where
  props : RTree PVal
  nameByLang : RTree PVal
  descByLang : RTree PVal
  groupIds : Option (List GroupId)

namespace Category

/-- comps_doccategory.c:23-29 `comps_doccategory_create`. -/
def create : Category := ⟨RTree.create, RTree.create, RTree.create, some []⟩

/-- comps_doccategory.c:32-42 `comps_doccategory_copy`. -/
def copy (c : Category) : Category :=
  ⟨c.props.copy PVal.copy, c.nameByLang.copy PVal.copy, c.descByLang.copy PVal.copy,
    objCopy (listCopy GroupId.copy) c.groupIds⟩

/-- comps_doccategory.c:70-81 `comps_doccategory_add_groupid` (both arguments not NULL). -/
def addGroupId (c : Category) (g : GroupId) : Category :=
  match c.groupIds with
  | none => { c with groupIds := some [g] }
  | some l => { c with groupIds := some (l ++ [g]) }

/-- comps_doccategory.c:64, comps_utils.h:141-144. -/
def getGroupIds (c : Category) : Option (List GroupId) := c.groupIds
/-- comps_doccategory.c:65, comps_utils.h:148-153. -/
def setGroupIds (c : Category) (l : Option (List GroupId)) : Category := { c with groupIds := l }

/-- comps_doccategory.c:83-111 `comps_doccategory_cmp_u`. -/
def cmp (a b : Category) : Bool :=
  if !RTree.cmp PVal.cmp a.props b.props then false else
  if !RTree.cmp PVal.cmp a.nameByLang b.nameByLang then false else
  if !RTree.cmp PVal.cmp a.descByLang b.descByLang then false else
  if !objCmp (listCmp GroupId.cmp) a.groupIds b.groupIds then false else true

/-- comps_doccategory.c:113-122 `__comps_doccategory_idcmp`. -/
def idcmp (a b : Category) : Bool := objCmp PVal.cmp (a.props.get b!"id") (b.props.get b!"id")

/-- comps_doccategory.c:124-164 `comps_doccategory_union`. -/
def union (lt : UInt8 → UInt8 → Bool) (c1 c2 : Category) : Category :=
  ⟨c1.props.union lt PVal.copy c2.props,
    c1.nameByLang.union lt PVal.copy c2.nameByLang,
    c1.descByLang.union lt PVal.copy c2.descByLang,
    some (unionList GroupId.cmpSet GroupId.copy c1.groupIds c2.groupIds)⟩

/-- comps_doccategory.c:166-208 `comps_doccategory_intersect`. -/
def intersect (lt : UInt8 → UInt8 → Bool) (c1 c2 : Category) : Res Category := do
  let ids ← intersectList GroupId.cmpSet GroupId.copy c1.groupIds c2.groupIds
  return ⟨intersectProps lt c1.props c2.props, RTree.create, RTree.create, some ids⟩

/-- comps_doccategory.c:347-367 `comps_doccategory_arch_filter`. -/
def archFilter (c : Category) (arches : List CStr) : Res Category :=
  match c.groupIds with
  | none => .error .nullDeref
  | some l => .ok ⟨c.props.copy PVal.copy, c.nameByLang.copy PVal.copy, c.descByLang.copy PVal.copy,
      some ((l.filter fun p => archKeep arches p.arches).map GroupId.copy)⟩

end Category

/-- comps_docenv.h `COMPS_DocEnv`. -/
structure Env where
  props : RTree PVal
  nameByLang : RTree PVal
  descByLang : RTree PVal
  groupList : Option (List GroupId)
  optionList : Option (List GroupId)

namespace Env

/-- comps_docenv.c:23-30 `comps_docenv_create`. -/
def create : Env := ⟨RTree.create, RTree.create, RTree.create, some [], some []⟩

/-- comps_docenv.c:33-44 `comps_docenv_copy`. -/
def copy (e : Env) : Env :=
  ⟨e.props.copy PVal.copy, e.nameByLang.copy PVal.copy, e.descByLang.copy PVal.copy,
    objCopy (listCopy GroupId.copy) e.groupList, objCopy (listCopy GroupId.copy) e.optionList⟩

/-- comps_docenv.c:76-87 `comps_docenv_add_groupid` (both arguments not NULL). -/
def addGroupId (e : Env) (g : GroupId) : Env :=
  match e.groupList with
  | none => { e with groupList := some [g] }
  | some l => { e with groupList := some (l ++ [g]) }

/-- comps_docenv.c:89-100 `comps_docenv_add_optionid` (both arguments not NULL). -/
def addOptionId (e : Env) (g : GroupId) : Env :=
  match e.optionList with
  | none => { e with optionList := some [g] }
  | some l => { e with optionList := some (l ++ [g]) }

/-- comps_docenv.c:67, comps_utils.h:141-144. -/
def getGroupList (e : Env) : Option (List GroupId) := e.groupList
/-- comps_docenv.c:68, comps_utils.h:141-144. -/
def getOptionList (e : Env) : Option (List GroupId) := e.optionList
/-- comps_docenv.c:70, comps_utils.h:148-153. -/
def setGroupList (e : Env) (l : Option (List GroupId)) : Env := { e with groupList := l }
/-- comps_docenv.c:71, comps_utils.h:148-153. -/
def setOptionList (e : Env) (l : Option (List GroupId)) : Env := { e with optionList := l }

/-- comps_docenv.c:102-138 `comps_docenv_cmp_u`. -/
def cmp (a b : Env) : Bool :=
  if !RTree.cmp PVal.cmp a.props b.props then false else
  if !RTree.cmp PVal.cmp a.nameByLang b.nameByLang then false else
  if !RTree.cmp PVal.cmp a.descByLang b.descByLang then false else
  if !objCmp (listCmp GroupId.cmp) a.groupList b.groupList then false else
  if !objCmp (listCmp GroupId.cmp) a.optionList b.optionList then false else true

/-- comps_docenv.c:140-149 `__comps_docenv_idcmp`. -/
def idcmp (a b : Env) : Bool := objCmp PVal.cmp (a.props.get b!"id") (b.props.get b!"id")

/-- comps_docenv.c:151-220 `comps_docenv_union`.  The option list is merged by the same steps
as the group list (the different reference handling of 192-201 is not visible here). -/
def union (lt : UInt8 → UInt8 → Bool) (e1 e2 : Env) : Env :=
  ⟨e1.props.union lt PVal.copy e2.props,
    e1.nameByLang.union lt PVal.copy e2.nameByLang,
    e1.descByLang.union lt PVal.copy e2.descByLang,
    some (unionList GroupId.cmpSet GroupId.copy e1.groupList e2.groupList),
    some (unionList GroupId.cmpSet GroupId.copy e1.optionList e2.optionList)⟩

/-- comps_docenv.c:222-290 `comps_docenv_intersect`. -/
def intersect (lt : UInt8 → UInt8 → Bool) (e1 e2 : Env) : Res Env := do
  let gs ← intersectListSet GroupId.cmpSet GroupId.copy e1.groupList e2.groupList
  let os ← intersectListSet GroupId.cmpSet GroupId.copy e1.optionList e2.optionList
  return ⟨intersectProps lt e1.props e2.props, RTree.create, RTree.create, some gs, some os⟩

/-- comps_docenv.c:449-478 `comps_docenv_arch_filter`. -/
def archFilter (e : Env) (arches : List CStr) : Res Env :=
  match e.groupList with
  | none => .error .nullDeref
  | some gl =>
    match e.optionList with
    | none => .error .nullDeref
    | some ol => .ok ⟨e.props.copy PVal.copy, e.nameByLang.copy PVal.copy,
        e.descByLang.copy PVal.copy,
        some ((gl.filter fun p => archKeep arches p.arches).map GroupId.copy),
        some ((ol.filter fun p => archKeep arches p.arches).map GroupId.copy)⟩

end Env

/-! ## Property setters and getters -/

/-- The properties of a group kept as strings: comps_docgroup.c:54-56, 61 (and
comps_doccategory.c:53-55, comps_docenv.c:62-64 without `langonly`). -/
inductive StrProp where
  | id | name | desc | langonly
  deriving DecidableEq, Repr

/-- comps_utils.h:60: the key is the name of the property. -/
def StrProp.key : StrProp → Bytes
  | .id => b!"id"
  | .name => b!"name"
  | .desc => b!"desc"
  | .langonly => b!"langonly"

/-- The properties of a group kept as numbers: comps_docgroup.c:57-60 (categories and
environments have `display_order` only: comps_doccategory.c:56, comps_docenv.c:65). -/
inductive NumProp where
  | dflt | uservisible | biarchonly | displayOrder
  deriving DecidableEq, Repr

/-- comps_utils.h:74, 79: the key is the name of the property. -/
def NumProp.key : NumProp → Bytes
  | .dflt => b!"def"
  | .uservisible => b!"uservisible"
  | .biarchonly => b!"biarchonly"
  | .displayOrder => b!"display_order"

/-- Calls of property setters, comps_utils.h:52-80, 165-169. -/
inductive PropCall where
  | str (p : StrProp) (s : Option Bytes)
  | num (p : NumProp) (n : Int) (unset : Bool)
  | arches (l : Option (List CStr))

/-- comps_utils.h:52-80, 165-169: effect of a setter on the property dictionary. -/
def PropCall.run (lt : UInt8 → UInt8 → Bool) (props : RTree PVal) : PropCall → RTree PVal
  | .str p s => setStrProp lt p.key props s
  | .num p n u => setNumProp lt p.key props n u
  | .arches l => setArchesProp lt props l

/-- comps_utils.h:87-91 `COMPS_PROP_GETTER` of a string property. -/
def getStrProp (props : RTree PVal) (p : StrProp) : Option PVal := props.get p.key
/-- comps_utils.h:87-91 `COMPS_PROP_GETTER` of a number property. -/
def getNumProp (props : RTree PVal) (p : NumProp) : Option PVal := props.get p.key

end Obj
end Comps
