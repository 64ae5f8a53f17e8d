import Verif.Model.Group
import Verif.Model.MRTree

/-!
# Documents

`/repo/libcomps/src/comps_doc.c`, `comps_doc.h`.

A document keeps its entry lists in a dictionary (`doc->objects`) under the names of the lists.
The lists returned by the getters are shared with the document in the C code; as elsewhere the model
keeps values, so changing such a list is modelled as setting it.
-/

namespace Comps
namespace Obj
open Comps.Text

/-- The objects kept in `doc->objects` (comps_doc.c:155-174): the three entry lists, the language
packs, the black list and whiteout, and the value of `comps_doc_set_lang`. -/
inductive DocVal where
  | groups (l : List Group)
  | cats (l : List Category)
  | envs (l : List Env)
  | dict (t : RTree PVal)
  | mdict (t : MTree CStr)
  | str (s : CStr)

/-- comps_doc.h:229-240 `COMPS_Doc`.  `logSet` and `langSet` say that the fields `log` and `lang`
have been given a value; reading a field that was never written is a fault. -/
structure Doc where
  objects : RTree DocVal
  encoding : Option CStr
  doctypeName : Option CStr
  doctypeSysid : Option CStr
  doctypePubid : Option CStr
  logSet : Bool
  langSet : Bool

/-- One use of the macros comps_doc.h:44-184: the key (`#OBJS`), the type of the object and the
object created when there is none. -/
structure Slot (α : Type) where
  key : Bytes
  inj : α → DocVal
  proj : DocVal → Option α
  empty : α

/-- comps_doc.c:155-157. -/
def groupsSlot : Slot (List Group) :=
  ⟨b!"groups", .groups, fun | .groups l => some l | _ => none, []⟩
/-- comps_doc.c:158-160. -/
def categoriesSlot : Slot (List Category) :=
  ⟨b!"categories", .cats, fun | .cats l => some l | _ => none, []⟩
/-- comps_doc.c:161-163. -/
def environmentsSlot : Slot (List Env) :=
  ⟨b!"environments", .envs, fun | .envs l => some l | _ => none, []⟩
/-- comps_doc.c:164-166. -/
def langpacksSlot : Slot (RTree PVal) :=
  ⟨b!"langpacks", .dict, fun | .dict l => some l | _ => none, RTree.create⟩
/-- comps_doc.c:167-169. -/
def blacklistSlot : Slot (MTree CStr) :=
  ⟨b!"blacklist", .mdict, fun | .mdict l => some l | _ => none, MTree.create⟩
/-- comps_doc.c:170-172. -/
def whiteoutSlot : Slot (MTree CStr) :=
  ⟨b!"whiteout", .mdict, fun | .mdict l => some l | _ => none, MTree.create⟩

namespace Doc

/-- comps_default.c: `comps_default_doctype_name`, used at comps_doc.c:42. -/
def defaultName : Bytes := b!"comps"
/-- comps_default.c: `comps_default_doctype_sysid`, used at comps_doc.c:43. -/
def defaultSysid : Bytes := b!"comps.dtd"
/-- comps_default.c: `comps_default_doctype_pubid`, used at comps_doc.c:44. -/
def defaultPubid : Bytes := b!"-//Red Hat, Inc.//DTD Comps info//EN"

/-- comps_doc.c:33-46 `comps_doc_create`: the fields once the encoding is known. -/
def make (encoding : Option CStr) : Doc :=
  ⟨RTree.create, encoding, some (compsStr (some defaultName)), some (compsStr (some defaultSysid)),
    some (compsStr (some defaultPubid)), true, true⟩

/-- comps_doc.c:33-46 `comps_doc_create`.  The argument `none` is `args == NULL`; `some e` is the
array whose first item is `e`, and `args[0]->obj_info` is read without a check. -/
def create (args : Option (Option CStr)) : Res Doc :=
  match args with
  | none => .ok (make none)
  | some none => .error .nullDeref
  | some (some e) => .ok (make (some e))

variable (lt : UInt8 → UInt8 → Bool)

/-- comps_doc.h:44-54, 72-82, 88-98 `COMPS_DOC_GETOBJLIST`, `GETOBJDICT`, `GETOBJMDICT`: the object
stored under the key, or a new one which is stored.  The second component is the document
afterwards.  A stored object of another type is a fault (at its first use). -/
def getObj {α : Type} (s : Slot α) (d : Doc) : Res (α × Doc) :=
  match d.objects.get s.key with
  | none => .ok (s.empty, { d with objects := d.objects.set lt s.key (some (s.inj s.empty)) })
  | some v =>
    match s.proj v with
    | some x => .ok (x, d)
    | none => .error .typeConfusion

/-- comps_doc.h:61-65, 104-108, 115-119 `COMPS_DOC_SETOBJLIST`, `SETOBJDICT`, `SETOBJMDICT`. -/
def setObj {α : Type} (s : Slot α) (d : Doc) (v : Option α) : Doc :=
  { d with objects := d.objects.set lt s.key (v.map s.inj) }

/-- comps_doc.h:127-140, 148-161, 171-184 `COMPS_DOC_ADDOBJLIST`, `ADDOBJDICT`, `ADDOBJMDICT`: `add`
changes the stored object, or a new one stored before.  The object is shared with the dictionary, so
the change is written back. -/
def addObj {α : Type} (s : Slot α) (add : α → α) (d : Doc) : Res Doc :=
  match d.objects.get s.key with
  | none =>
    let d' := setObj lt s d (some s.empty)
    .ok (setObj lt s d' (some (add s.empty)))
  | some v =>
    match s.proj v with
    | some x => .ok (setObj lt s d (some (add x)))
    | none => .error .typeConfusion

/-- comps_doc.c:157 `comps_doc_add_group`. -/
def addGroup (d : Doc) (g : Group) : Res Doc := addObj lt groupsSlot (· ++ [g]) d
/-- comps_doc.c:160 `comps_doc_add_category`. -/
def addCategory (d : Doc) (g : Category) : Res Doc := addObj lt categoriesSlot (· ++ [g]) d
/-- comps_doc.c:163 `comps_doc_add_environment`. -/
def addEnvironment (d : Doc) (g : Env) : Res Doc := addObj lt environmentsSlot (· ++ [g]) d
/-- comps_doc.c:166 `comps_doc_add_langpack`. -/
def addLangpack (d : Doc) (k : Bytes) (s : CStr) : Res Doc :=
  addObj lt langpacksSlot (fun t => t.set lt k (some (.str s))) d
/-- comps_doc.c:169 `comps_doc_add_blacklist`. -/
def addBlacklist (d : Doc) (k : Bytes) (s : CStr) : Res Doc :=
  addObj lt blacklistSlot (fun t => MTree.set t k s) d
/-- comps_doc.c:172 `comps_doc_add_whiteout`. -/
def addWhiteout (d : Doc) (k : Bytes) (s : CStr) : Res Doc :=
  addObj lt whiteoutSlot (fun t => MTree.set t k s) d

/-- comps_doc.c:174, comps_doc.h:211-215 `comps_doc_set_lang`: stores under the key "lang". -/
def setLang (d : Doc) (s : Option CStr) : Doc :=
  { d with objects := d.objects.set lt b!"lang" (s.map .str) }

/-- comps_doc.c:816-818 `comps_doc_doctype_name_get`. -/
def getDoctypeName (d : Doc) : Option CStr := d.doctypeName
/-- comps_doc.c:819-821 `comps_doc_doctype_pubid_get`. -/
def getDoctypePubid (d : Doc) : Option CStr := d.doctypePubid
/-- comps_doc.c:822-824 `comps_doc_doctype_sysid_get`. -/
def getDoctypeSysid (d : Doc) : Option CStr := d.doctypeSysid
/-- comps_doc.c:825-827 `comps_doc_doctype_name_set`. -/
def setDoctypeName (d : Doc) (v : Option CStr) : Doc := { d with doctypeName := v }
/-- comps_doc.c:828-830 `comps_doc_doctype_sysid_set`: replaces `doctype_name`. -/
def setDoctypeSysid (d : Doc) (v : Option CStr) : Doc := { d with doctypeName := v }
/-- comps_doc.c:831-833 `comps_doc_doctype_pubid_set`: replaces `doctype_name`. -/
def setDoctypePubid (d : Doc) (v : Option CStr) : Doc := { d with doctypeName := v }

end Doc

/-- comps_obj.c:32-41 `comps_object_copy` on an object of `doc->objects`: comps_objlist.c:42-53,
comps_objradix.c:146-202, comps_objmradix.c:119-170 (which faults unless empty, see `MTree.copy`; the
value given here in that case is never used, see `Doc.copy`), comps_obj.c:121-129. -/
def DocVal.copy : DocVal → DocVal
  | .groups l => .groups (listCopy Group.copy l)
  | .cats l => .cats (listCopy Category.copy l)
  | .envs l => .envs (listCopy Env.copy l)
  | .dict t => .dict (t.copy PVal.copy)
  | .mdict t =>
    match MTree.copy t with
    | .ok t' => .mdict t'
    | .error _ => .mdict t
  | .str s => .str s.copy

/-- Does copying the object fault?  comps_objmradix.c:134 through `MTree.copy`. -/
def DocVal.copyFault : DocVal → Bool
  | .mdict t =>
    match MTree.copy t with
    | .ok _ => false
    | .error _ => true
  | _ => false

mutual
/-- comps_obj.c:48-58 on two elements of a value list of a multi-dictionary.  Different types are
a fault in the C code; the only caller compares a list with itself (comps_objmradix.c:703-709). -/
def mvalCmp : MVal CStr → MVal CStr → Bool
  | .one a, .one b => a.cmp b
  | .nested a, .nested b => mlistCmp a b
  | _, _ => false
/-- comps_objlist.c:416-430 on two value lists. -/
def mlistCmp : List (MVal CStr) → List (MVal CStr) → Bool
  | [], [] => true
  | a :: as, b :: bs => if mvalCmp a b then mlistCmp as bs else false
  | _, _ => false
end

namespace Doc
variable (lt : UInt8 → UInt8 → Bool)

/-- comps_doc.c:49-55 `comps_doc_copy`: `log` and `lang` of the new document are not written.
The order of faults inside the dictionary copy is not modelled. -/
def copy (d : Doc) : Res Doc :=
  if d.objects.pairs.any fun e => e.2.copyFault then .error .typeConfusion
  else .ok ⟨d.objects.copy DocVal.copy, objCopy CStr.copy d.encoding, objCopy CStr.copy d.doctypeName,
    objCopy CStr.copy d.doctypeSysid, objCopy CStr.copy d.doctypePubid, false, false⟩

/-- comps_doc.c:58-67 `comps_doc_destroy`: the first thing read is `doc->log`.  (Reference counts
are modelled in `Verif/Model/RefC.lean`.) -/
def destroy (d : Doc) : Res Unit :=
  if d.logSet then .ok () else .error .uninitialised

/-- comps_doc.c:70-148 `comps_doc_cmp_u`: the result.  The getters create missing lists in both
documents, which no getter shows; the documents afterwards are not part of the result here. -/
def cmp (a b : Doc) : Res Bool :=
  if !objCmp CStr.cmp a.encoding b.encoding then .ok false else
  if !objCmp CStr.cmp a.doctypeName b.doctypeName then .ok false else
  if !objCmp CStr.cmp a.doctypeSysid b.doctypeSysid then .ok false else
  if !objCmp CStr.cmp a.doctypePubid b.doctypePubid then .ok false else do
  let (c1, a) ← getObj lt categoriesSlot a
  let (c2, b) ← getObj lt categoriesSlot b
  if !listCmp Category.cmp c1 c2 then return false
  let (g1, a) ← getObj lt groupsSlot a
  let (g2, b) ← getObj lt groupsSlot b
  if !listCmp Group.cmp g1 g2 then return false
  let (e1, a) ← getObj lt environmentsSlot a
  let (e2, b) ← getObj lt environmentsSlot b
  if !listCmp Env.cmp e1 e2 then return false
  let (l1, a) ← getObj lt langpacksSlot a
  let (l2, b) ← getObj lt langpacksSlot b
  if !RTree.cmp PVal.cmp l1 l2 then return false
  let (b1, a) ← getObj lt blacklistSlot a
  let (b2, b) ← getObj lt blacklistSlot b
  if !MTree.cmp mlistCmp b1 b2 then return false
  let (w1, _) ← getObj lt whiteoutSlot a
  let (w2, _) ← getObj lt whiteoutSlot b
  return MTree.cmp mlistCmp w1 w2

end Doc

/-! ## Union, intersection, filtering -/

/-- comps_doc.c:293-295, 319-321, 345-349: the set of copies of the first operand's entries. -/
def docSet {α : Type} (eqf : α → α → Bool) (copy : α → α) (l : List α) : List α :=
  l.foldl (fun s x => CSet.add eqf s (copy x)) []

/-- comps_doc.c:298-311, 324-337, 353-366: one entry of the second operand. -/
def docUnionStep {α : Type} (eqf : α → α → Bool) (copy : α → α) (mrg : α → α → α) (set : List α)
    (y : α) : List α :=
  match CSet.dataAt eqf set y with
  | some x => CSet.add eqf (CSet.remove eqf set y).1 (mrg x y)
  | none => CSet.add eqf set (copy y)

/-- comps_doc.c:290-316, 318-342, 344-372: one kind of entries of the union. -/
def docUnionList {α : Type} (eqf : α → α → Bool) (copy : α → α) (mrg : α → α → α)
    (l1 l2 : List α) : List α :=
  l2.foldl (docUnionStep eqf copy mrg) (docSet eqf copy l1)

/-- comps_doc.c:417-429, 434-447, 452-463: one kind of entries of the intersection; `common y x`
intersects the entry `y` of the second operand with the entry `x` found in the set. -/
def docIntersectList {α : Type} (eqf : α → α → Bool) (common : α → α → Res α) (l1 l2 : List α) :
    Res (List α) :=
  let set := l1.foldl (CSet.add eqf) []
  l2.foldlM (fun acc y =>
    match CSet.dataAt eqf set y with
    | some x => do return acc ++ [← common y x]
    | none => .ok acc) []

/-- comps_doc.c:845-855, 857-867, 869-878: one kind of entries of the filtered document. -/
def docFilterList {α : Type} (arches : α → Res (Option (List CStr))) (filter : α → Res α)
    (req : List CStr) (l : List α) : Res (List α) :=
  l.foldlM (fun acc x => do
    let a ← arches x
    if archKeep req a then return acc ++ [← filter x] else return acc) []

namespace Doc
variable (lt : UInt8 → UInt8 → Bool)

/-- comps_doc.c:315-317, 346-348, 379-381 and the like: entries added one by one to `res`. -/
def addAll {α : Type} (s : Slot (List α)) (d : Doc) (l : List α) : Res Doc :=
  l.foldlM (fun d x => addObj lt s (· ++ [x]) d) d

/-- comps_doc.c:273-382 `comps_doc_union`.  The result is the new document (the operands only get
missing lists created by the getters).  The black list, whiteout and doctype are not carried. -/
def union (c1 c2 : Doc) : Res Doc := do
  let (g1, c1) ← getObj lt groupsSlot c1
  let (k1, c1) ← getObj lt categoriesSlot c1
  let (e1, c1) ← getObj lt environmentsSlot c1
  let res ← create (some c1.encoding)
  let (g2, c2) ← getObj lt groupsSlot c2
  let res ← addAll lt groupsSlot res (docUnionList Group.idcmp Group.copy (Group.union lt) g1 g2)
  let (k2, c2) ← getObj lt categoriesSlot c2
  let res ← addAll lt categoriesSlot res
    (docUnionList Category.idcmp Category.copy (Category.union lt) k1 k2)
  let (e2, c2) ← getObj lt environmentsSlot c2
  let res ← addAll lt environmentsSlot res (docUnionList Env.idcmp Env.copy (Env.union lt) e1 e2)
  let (l1, _) ← getObj lt langpacksSlot c1
  let (l2, _) ← getObj lt langpacksSlot c2
  return setObj lt langpacksSlot res (some (l1.union lt PVal.copy l2))

/-- comps_doc.c:396-466 `comps_doc_intersect`. -/
def intersect (c1 c2 : Doc) : Res Doc := do
  let (g1, c1) ← getObj lt groupsSlot c1
  let (k1, c1) ← getObj lt categoriesSlot c1
  let (e1, c1) ← getObj lt environmentsSlot c1
  let res ← create (some c1.encoding)
  let (g2, c2) ← getObj lt groupsSlot c2
  let res ← addAll lt groupsSlot res (← docIntersectList Group.idcmp (Group.intersect lt) g1 g2)
  let (k2, c2) ← getObj lt categoriesSlot c2
  let res ← addAll lt categoriesSlot res
    (← docIntersectList Category.idcmp (Category.intersect lt) k1 k2)
  let (e2, _) ← getObj lt environmentsSlot c2
  addAll lt environmentsSlot res (← docIntersectList Env.idcmp (Env.intersect lt) e1 e2)

/-- comps_doc.c:836-879 `comps_doc_arch_filter`. -/
def archFilter (d : Doc) (req : List CStr) : Res Doc := do
  let res ← create (some d.encoding)
  let (k, d) ← getObj lt categoriesSlot d
  let res ← addAll lt categoriesSlot res
    (← docFilterList (fun c => getArchesProp c.props) (fun c => c.archFilter req) req k)
  let (g, d) ← getObj lt groupsSlot d
  let res ← addAll lt groupsSlot res
    (← docFilterList (fun c => getArchesProp c.props) (fun c => c.archFilter req) req g)
  let (e, _) ← getObj lt environmentsSlot d
  addAll lt environmentsSlot res
    (← docFilterList (fun c => getArchesProp c.props) (fun c => c.archFilter req) req e)

end Doc

/-! ## Queries -/

/-- comps_obj.c:182-184 `comps_str_fnmatch`; `fn pattern text` says whether the C library function
`fnmatch` (with the given flags) returns 0.  A string object without text passes NULL on. -/
def strFnmatch (fn : Bytes → Bytes → Bool) (s : CStr) (pattern : Bytes) : Res Bool :=
  match s.val with
  | some t => .ok (fn pattern t)
  | none => .error .nullDeref

/-- comps_doc.c:489-492, 547-550, 604-607: `tmp_prop && comps_str_fnmatch(tmp_prop, pattern, flags)`
for a value read from a dictionary and used as a string. -/
def propMatch (fn : Bytes → Bytes → Bool) (v : Option PVal) (pattern : Bytes) : Res Bool := do
  match ← asStr v with
  | none => return false
  | some s => strFnmatch fn s pattern

/-- The arguments of a query, comps_doc.c:468-469. -/
structure Query where
  id : Option Bytes
  name : Option Bytes
  desc : Option Bytes
  lang : Option Bytes

/-- comps_doc.c:484-486: `matched_max`. -/
def Query.max (q : Query) : Nat :=
  (if q.id.isSome then 1 else 0) + (if q.name.isSome then 1 else 0) + (if q.desc.isSome then 1 else 0)

/-- comps_doc.c:489-493, 547-551, 604-608: the contribution of the id to `matched`. -/
def matchId (fn : Bytes → Bytes → Bool) (props : RTree PVal) (q : Query) : Res Nat :=
  match q.id with
  | none => .ok 0
  | some p => do return if ← propMatch fn (props.get b!"id") p then 1 else 0

/-- comps_doc.c:494-502, 552-559, 609-616: name (key "name"), and 561-568, 618-625: description (key
"desc") of categories and environments.  With a language given only the translation is looked at. -/
def matchLang (fn : Bytes → Bytes → Bool) (key : Bytes) (props byLang : RTree PVal)
    (pat lang : Option Bytes) : Res Nat :=
  match pat, lang with
  | none, _ => .ok 0
  | some p, none => do return if ← propMatch fn (props.get key) p then 1 else 0
  | some p, some l => do return if ← propMatch fn (byLang.get l) p then 1 else 0

/-- comps_doc.c:504-511: description of groups; `!lang` is missing at line 505. -/
def matchDescGroup (fn : Bytes → Bytes → Bool) (props byLang : RTree PVal)
    (pat lang : Option Bytes) : Res Nat :=
  match pat with
  | none => .ok 0
  | some p => do
    if ← propMatch fn (props.get b!"desc") p then return 1 else
    match lang with
    | none => return 0
    | some l => return if ← propMatch fn (byLang.get l) p then 1 else 0

/-- comps_doc.c:488-516: is the group part of the answer? -/
def groupMatches (fn : Bytes → Bytes → Bool) (q : Query) (g : Group) : Res Bool := do
  let a ← matchId fn g.props q
  let b ← matchLang fn b!"name" g.props g.nameByLang q.name q.lang
  let c ← matchDescGroup fn g.props g.descByLang q.desc q.lang
  return a + b + c == q.max

/-- comps_doc.c:546-573: is the category part of the answer? -/
def categoryMatches (fn : Bytes → Bytes → Bool) (q : Query) (g : Category) : Res Bool := do
  let a ← matchId fn g.props q
  let b ← matchLang fn b!"name" g.props g.nameByLang q.name q.lang
  let c ← matchLang fn b!"desc" g.props g.descByLang q.desc q.lang
  return a + b + c == q.max

/-- comps_doc.c:603-630: is the environment part of the answer? -/
def envMatches (fn : Bytes → Bytes → Bool) (q : Query) (g : Env) : Res Bool := do
  let a ← matchId fn g.props q
  let b ← matchLang fn b!"name" g.props g.nameByLang q.name q.lang
  let c ← matchLang fn b!"desc" g.props g.descByLang q.desc q.lang
  return a + b + c == q.max

/-- comps_doc.c:488-518, 546-575, 603-632: the loop over the entries. -/
def queryLoop {α : Type} (f : α → Res Bool) (l : List α) : Res (List α) :=
  l.foldlM (fun acc x => do if ← f x then return acc ++ [x] else return acc) []

namespace Doc
variable (lt : UInt8 → UInt8 → Bool)

/-- comps_doc.c:468-523 `comps_doc_get_groups`. -/
def getGroups (fn : Bytes → Bytes → Bool) (d : Doc) (q : Query) : Res (List Group) := do
  let (l, _) ← getObj lt groupsSlot d
  queryLoop (groupMatches fn q) l

/-- comps_doc.c:525-580 `comps_doc_get_categories`. -/
def getCategories (fn : Bytes → Bytes → Bool) (d : Doc) (q : Query) : Res (List Category) := do
  let (l, _) ← getObj lt categoriesSlot d
  queryLoop (categoryMatches fn q) l

/-- comps_doc.c:582-637 `comps_doc_get_envs`. -/
def getEnvs (fn : Bytes → Bytes → Bool) (d : Doc) (q : Query) : Res (List Env) := do
  let (l, _) ← getObj lt environmentsSlot d
  queryLoop (envMatches fn q) l

end Doc
end Obj
end Comps
