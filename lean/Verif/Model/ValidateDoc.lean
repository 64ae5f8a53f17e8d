import Verif.Model.Doc
import Verif.Model.Validate

/-!
# The rule tables of the library

`COMPS_DocGroupPackage_ValidateRules` (comps_docpackage.c:242-248), `COMPS_DocGroupId_ValidateRules`
(comps_docgroupid.c:153-159), `COMPS_DocGroup_ValidateRules` (comps_docgroup.c:460-470),
`COMPS_DocCategory_ValidateRules` (comps_doccategory.c:378-388), `COMPS_DocEnv_ValidateRules`
(comps_docenv.c:489-503), `COMPS_Doc_ValidateRules` (comps_doc.c:933-948).
-/

namespace Comps.Val
open Comps Comps.Obj

/-- The objects rules are made for; `COMPS_Object*` in the code. -/
inductive VObj where
  | package (p : Package)
  | groupId (g : GroupId)
  | group (g : Group)
  | category (c : Category)
  | env (e : Env)
  | doc (d : Doc)

/-- What `comps_empty_check` reads of a property (comps_validate.c:145): the `val` of a string
object. -/
def strVal : Option CStr → Option (Option Bytes)
  | none => none
  | some s => some s.val

/-- `comps_docpackage_get_name` (comps_docpackage.c:60-62) through the cast of `COMPS_VAL_GETF`. -/
def getPackageName : VObj → Res (Option (Option Bytes))
  | .package p => .ok (strVal p.getName)
  | _ => .error .typeConfusion

/-- `comps_docgroupid_get_name` (comps_docgroupid.c:45-47). -/
def getGroupIdName : VObj → Res (Option (Option Bytes))
  | .groupId p => .ok (strVal p.getName)
  | _ => .error .typeConfusion

/-- `comps_docgroup_get_id` (comps_docgroup.c:63). -/
def getGroupId : VObj → Res (Option (Option Bytes))
  | .group g => do .ok (strVal (← asStr (g.props.get b!"id")))
  | _ => .error .typeConfusion

/-- `comps_doccategory_get_id` (comps_doccategory.c:58). -/
def getCategoryId : VObj → Res (Option (Option Bytes))
  | .category g => do .ok (strVal (← asStr (g.props.get b!"id")))
  | _ => .error .typeConfusion

/-- `comps_docenv_get_id_obj` (comps_docenv.c:57). -/
def getEnvId : VObj → Res (Option (Option Bytes))
  | .env g => do .ok (strVal (← asStr (g.props.get b!"id")))
  | _ => .error .typeConfusion

/-- The members of a list with the addresses they have.
Simplification: the members are different objects; as the address is only used to find the first
position of an object that was found by comparison, the same object several times gives the same
messages (C35_messages_partial holds for all addresses). -/
def placed {α : Type} (l : List α) : List (Ref α) := l.zipIdx.map fun e => ⟨e.2, e.1⟩

/-- `comps_objlist_unique_check` for a list of packages or group ids (comps_validate.c:164-208); the
members are compared with `comps_object_cmp_v`. -/
def uniqueList {O α : Type} (cmp : α → α → Bool) (o : O) (l : Option (List α)) : Res (ValRes O) :=
  uniqueCheck cmp o (l.map placed)

/-- Offset `packages` of a group (comps_docgroup.c:467; `comps_validate_rule_list_check`,
comps_validate.c:90-100). -/
def checkPackages : VObj → Res (ValRes VObj)
  | .group g => uniqueList Package.cmp (.group g) g.packages
  | _ => .error .typeConfusion

/-- Offset `group_ids` of a category (comps_doccategory.c:385). -/
def checkGroupIds : VObj → Res (ValRes VObj)
  | .category g => uniqueList GroupId.cmp (.category g) g.groupIds
  | _ => .error .typeConfusion

/-- Offset `group_list` of an environment (comps_docenv.c:495). -/
def checkGroupList : VObj → Res (ValRes VObj)
  | .env g => uniqueList GroupId.cmp (.env g) g.groupList
  | _ => .error .typeConfusion

/-- Offset `option_list` of an environment (comps_docenv.c:499). -/
def checkOptionList : VObj → Res (ValRes VObj)
  | .env g => uniqueList GroupId.cmp (.env g) g.optionList
  | _ => .error .typeConfusion

/-- comps_docpackage.c:242-248. -/
def packageRules : List (Rule VObj) := [propRule b!"Package name check: " getPackageName emptyCheck]

/-- comps_docgroupid.c:153-159. -/
def groupIdRules : List (Rule VObj) := [propRule b!"GroupId name check: " getGroupIdName emptyCheck]

/-- comps_docgroup.c:460-470. -/
def groupRules : List (Rule VObj) :=
  [propRule b!"Group id check: " getGroupId emptyCheck,
   ⟨b!"Group unique package list check: ", checkPackages⟩]

/-- comps_doccategory.c:378-388. -/
def categoryRules : List (Rule VObj) :=
  [propRule b!"Category id check: " getCategoryId emptyCheck,
   ⟨b!"Category unique package list check: ", checkGroupIds⟩]

/-- comps_docenv.c:489-503. -/
def envRules : List (Rule VObj) :=
  [propRule b!"Environment id check: " getEnvId emptyCheck,
   ⟨b!"Environment unique group list check: ", checkGroupList⟩,
   ⟨b!"Environment unique option list check: ", checkOptionList⟩]

/-- The getter of a `COMPS_ValRuleList2` of a document (comps_doc.c:935-947).
Simplification: an empty list the getter stores in the document (C44) is not kept; no other getter
looks at it. -/
def getList {α : Type} (lt : UInt8 → UInt8 → Bool) (s : Slot (List α)) (inj : α → VObj) :
    VObj → Res (Option (List VObj))
  | .doc d => do .ok (some ((← d.getObj lt s).1.map inj))
  | _ => .error .typeConfusion

/-- comps_doc.c:933-948; the checks are `comps_docgroups_validate`, `comps_doccategories_validate`,
`comps_docenvs_validate` (917-931). -/
def docRules (lt : UInt8 → UInt8 → Bool) : List (Rule VObj) :=
  [propRule b!"Groups check:" (getList lt groupsSlot .group) fun _ l => listValidate groupRules l,
   propRule b!"Categories check:" (getList lt categoriesSlot .category)
     fun _ l => listValidate categoryRules l,
   propRule b!"Environments check:" (getList lt environmentsSlot .env)
     fun _ l => listValidate envRules l]

end Comps.Val
