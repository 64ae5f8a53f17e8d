import Verif.Model.Doc
import Verif.Model.Xml

/-!
# The XML parser

`/repo/libcomps/src/comps_parse.c` and `/repo/libcomps/src/comps_elem.c`.

expat is outside the model: a run is given as the list of handler calls (`Event`) it makes, with
the position it reports, and the errors it returns.  `libxml2` validation
(`comps_parse_validate_dtd`) is not modelled.  Allocation failures (`raise(SIGABRT)`), printing of
log messages (`log->std_out`) and the undefined `isspace` of a negative `char` are not modelled.

The element stack and the text buffer are `COMPS_HSList`s used only through append, shift, pop and
clear, which `Props/Lists.lean` proves to act as on sequences; here they are sequences.
-/

namespace Comps
namespace Parse
open Comps.Obj Comps.Text Comps.Xml

/-- What the C standard and the caller leave open: the order of `char` (`lt`), the options
(comps_parse.c:212-215, 252-255), and what is found in memory behind the attribute tables of
`<name>` and `<description>`, which have no NULL at their end (comps_elem.c:60, 70): `none` if
reading on is a fault, `some l` if the names `l` and then a NULL are found. -/
structure Ctx where
  lt : UInt8 → UInt8 → Bool
  opts : Defaults
  nameTail : Option (List Bytes)
  descTail : Option (List Bytes)

/-- comps_elem.h `COMPS_Elem`.  `ancestor` is written only if the table of the element asks for a
parent and the stack is not empty (comps_parse.c:354-359); `ancSet` says so.  When written it is the
element below on the stack, and that stays below it as long as the element lives. -/
structure Elem where
  name : Option Bytes
  valid : Bool
  ancSet : Bool
  type : ElemType
  attrs : RTree Bytes

/-- The pointer `parsed->comps_doc`. -/
inductive DocPtr where
  | null
  | live (d : Doc)
  | freed

/-- comps_parse.h `COMPS_Parsed`.  `stack` is `elem_stack`, last element first.  `def_options` is in
`Ctx`; `tmp_buffer` lives only during the end handler and is passed along there. -/
structure Parsed where
  stack : List Elem
  doc : DocPtr
  textBuffer : List Bytes
  textLen : Nat
  log : List LogEntry
  fatal : Bool
  enc : Option Bytes
  doctypeName : Option CStr
  doctypeSysid : Option CStr
  doctypePubid : Option CStr

/-- A position reported by expat: `XML_GetCurrentLineNumber`, `XML_GetCurrentColumnNumber`. -/
structure Pos where
  line : Int
  col : Int

/-- The handlers expat calls (comps_parse.c:55-59). -/
inductive Event where
  | start (name : Bytes) (attrs : List (Bytes × Bytes))
  | text (chunk : Bytes)
  | stop (name : Bytes)
  | doctype (name : Bytes) (sysid pubid : Option Bytes)

/-- One call of `XML_ParseBuffer` or `XML_Parse`: the handler calls it makes and, if it returns an
error, position and text of the error. -/
structure Chunk where
  events : List (Pos × Event)
  error : Option (Pos × Bytes)

/-! ## Log

The handlers of comps_elem.c read and change the document (`parsed->comps_doc`) and append to the
log; they touch nothing else of the parser.  In the model they take the document pointer and return
it with the list of entries they append. -/

/-- A log entry with the usual three arguments: a text, `comps_num(parser_line)`,
`comps_num(parser_col)`. -/
def entry (code : Nat) (t : Option Bytes) (p : Pos) : LogEntry :=
  ⟨code, [some (.str (compsStr t)), some (.num p.line), some (.num p.col)]⟩

/-- comps_elem.c:417-425 `__comps_check_required_param`. -/
def checkRequired (v : Option PVal) (name : Bytes) (p : Pos) : List LogEntry :=
  match v with
  | none => [entry 21 (some name) p]
  | some _ => []

/-- comps_elem.c:427-435 `__comps_check_allready_set`. -/
def checkAlreadySet (v : Option PVal) (name : Bytes) (p : Pos) : List LogEntry :=
  match v with
  | some _ => [entry 3 (some name) p]
  | none => []

/-! ## The document and its last entries -/

/-- `parsed->comps_doc` dereferenced. -/
def DocPtr.deref : DocPtr → Res Doc
  | .null => .error .nullDeref
  | .live d => .ok d
  | .freed => .error .useAfterFree

/-- `list = comps_doc_groups(parsed->comps_doc)` and the like (comps_elem.c:472, 517, 542): the list,
which the getter creates if there is none, and the document. -/
def entries {α : Type} (cx : Ctx) (sl : Slot (List α)) (p : DocPtr) : Res (List α × Doc) := do
  let d ← p.deref
  Doc.getObj cx.lt sl d

/-- `list->last->comps_obj`: `last` of an empty list is NULL. -/
def lastOf {α : Type} (l : List α) : Res α :=
  match l.getLast? with
  | none => .error .nullDeref
  | some x => .ok x

/-- The handlers take the last entry of a list of the document (comps_elem.c:472-473 and so on), change
it (`f`) and log.  The entry is shared with the list and the list with the document, so in the model
the list with the changed entry is stored again under its key. -/
def onLast {α : Type} (cx : Ctx) (sl : Slot (List α)) (f : α → Res (α × List LogEntry))
    (p : DocPtr) : Res (DocPtr × List LogEntry) := do
  let r ← entries cx sl p
  let x ← lastOf r.1
  let y ← f x
  .ok (.live (Doc.setObj cx.lt sl r.2 (some (r.1.dropLast ++ [y.1]))), y.2)

/-- The fields used alike on groups, categories and environments (comps_elem.c:716-735, 837-852). -/
structure EntryOps (α : Type) where
  slot : Slot (List α)
  props : α → RTree PVal
  setProps : α → RTree PVal → α
  nameByLang : α → RTree PVal
  setNameByLang : α → RTree PVal → α
  descByLang : α → RTree PVal
  setDescByLang : α → RTree PVal → α

/-- comps_elem.c:717-721, 848-851. -/
def groupOps : EntryOps Group :=
  ⟨groupsSlot, (·.props), fun g p => { g with props := p }, (·.nameByLang),
    fun g p => { g with nameByLang := p }, (·.descByLang), fun g p => { g with descByLang := p }⟩
/-- comps_elem.c:723-727, 838-841. -/
def categoryOps : EntryOps Category :=
  ⟨categoriesSlot, (·.props), fun g p => { g with props := p }, (·.nameByLang),
    fun g p => { g with nameByLang := p }, (·.descByLang), fun g p => { g with descByLang := p }⟩
/-- comps_elem.c:729-733, 843-846. -/
def envOps : EntryOps Env :=
  ⟨environmentsSlot, (·.props), fun g p => { g with props := p }, (·.nameByLang),
    fun g p => { g with nameByLang := p }, (·.descByLang), fun g p => { g with descByLang := p }⟩

/-! ## Element table -/

/-- `.ancestors` of `COMPS_ElemInfos` (comps_elem.c:22-260). -/
def ancestors : ElemType → List ElemType
  | .unknown => [.none]
  | .doc => [.none]
  | .group => [.doc]
  | .id => [.group, .category, .env]
  | .name => [.group, .category, .env]
  | .desc => [.group, .category, .env]
  | .default => [.group]
  | .langonly => [.group]
  | .uservisible => [.group]
  | .biarchonly => [.group]
  | .packagelist => [.group]
  | .packagereq => [.packagelist]
  | .category => [.doc]
  | .grouplist => [.category, .env]
  | .groupid => [.grouplist, .optlist]
  | .displayOrder => [.group, .category, .env]
  | .env => [.doc]
  | .optlist => [.env]
  | .langpacks => [.doc]
  | .matchE => [.langpacks]
  | .blacklist => [.doc]
  | .package => [.blacklist]
  | .whiteout => [.doc]
  | .ignoredep => [.whiteout]
  | .none => []
  | .sentinel => []

/-- `.attributes` of `COMPS_ElemInfos` (comps_elem.c:22-260) up to the NULL; the lists of `<name>`
and `<description>` have none and are read on (comps_elem.c:60, 70, comps_parse.c:445). -/
def attributes (cx : Ctx) : ElemType → Res (List Bytes)
  | .group => .ok [b!"arch"]
  | .category => .ok [b!"arch"]
  | .env => .ok [b!"arch"]
  | .name => match cx.nameTail with
    | some l => .ok (b!"xml:lang" :: l)
    | none => .error .outOfBounds
  | .desc => match cx.descTail with
    | some l => .ok (b!"xml:lang" :: l)
    | none => .error .outOfBounds
  | .packagereq => .ok [b!"requires", b!"type", b!"basearchonly", b!"arch"]
  | .groupid => .ok [b!"default", b!"arch"]
  | .matchE => .ok [b!"name", b!"install"]
  | .package => .ok [b!"name", b!"arch"]
  | .ignoredep => .ok [b!"requires", b!"package"]
  | _ => .ok []

/-- `elem->ancestor`, given the elements below. -/
def Elem.ancestor (e : Elem) (below : List Elem) : Res (Elem × List Elem) :=
  if e.ancSet then
    match below with
    | [] => .error .uninitialised
    | a :: rest => .ok (a, rest)
  else .error .uninitialised

/-- comps_elem.c:437-447 `__comps_split_arches`. -/
def archList (v : Bytes) : List CStr := (splitArches [] v).map fun b => compsStr (some b)

/-! ## Handlers before the content

None of them logs. -/

/-- comps_elem.c:449-454 `comps_elem_doc_preproc`: a new document replaces the old one; `enc` is
`parsed->enc`. -/
def docPre (enc : Option Bytes) : Res DocPtr := do
  let d ← Doc.create (some (some (compsStr enc)))
  .ok (.live d)

/-- comps_elem.c:459-464 and the same statements for categories and environments: the property
dictionary of a new entry. -/
def archProps (cx : Ctx) (e : Elem) (props : RTree PVal) : RTree PVal :=
  match e.attrs.get b!"arch" with
  | some a => setArchesProp cx.lt props (some (archList a))
  | none => props

/-- comps_elem.c:455-465, 502-511, 527-536 `comps_elem_group_preproc`, `comps_elem_category_preproc`,
`comps_elem_env_preproc`.  The entry is added and then gets its architectures; here it is added
with them. -/
def entryPre {α : Type} (cx : Ctx) (o : EntryOps α) (create : α) (e : Elem) (p : DocPtr) :
    Res DocPtr := do
  let d ← p.deref
  let d ← Doc.addObj cx.lt o.slot (· ++ [o.setProps create (archProps cx e (o.props create))]) d
  .ok (.live d)

/-- comps_elem.c:600-615: the new package; `df` is the default type. -/
def newPackage (df : PkgType) (attrs : RTree Bytes) : Package where
  name := Package.create.name
  requires := (attrs.get b!"requires").map fun t => compsStr (some t)
  basearchonly :=
    match attrs.get b!"basearchonly" with
    | some t => if t == b!"true" then some 1 else none
    | none => none
  arches := (attrs.get b!"arch").map archList
  type :=
    match attrs.get b!"type" with
    | some t => pkgGetType (some t)
    | none => df

/-- A change of the last entry that logs nothing. -/
def editLast {α : Type} (cx : Ctx) (sl : Slot (List α)) (f : α → Res α) (p : DocPtr) :
    Res DocPtr := do
  let r ← onLast cx sl (fun x => do
    let y ← f x
    .ok (y, [])) p
  .ok r.1

/-- comps_elem.c:587-616 `comps_elem_packagereq_preproc`.  The package is added and then filled;
here it is added filled. -/
def packagereqPre (cx : Ctx) (e : Elem) (p : DocPtr) : Res DocPtr :=
  editLast cx groupsSlot (fun g => .ok (g.addPackage (newPackage cx.opts.pkgtype e.attrs))) p

/-- comps_elem.c:637-643, 662-668: the new group id. -/
def newGroupId (attrs : RTree Bytes) : GroupId where
  name := GroupId.create.name
  dflt :=
    match attrs.get b!"default" with
    | some t => strcmp (some t) (some b!"true")
    | none => false
  arches := (attrs.get b!"arch").map archList

/-- Where a group id goes: the option list or the group list of the last environment, or the list of
the last category (comps_elem.c:644-661, 673-693). -/
inductive IdPlace where
  | option | envList | category

/-- comps_elem.c:644-661, 673-693: the tests of the ancestors. -/
def idPlace (e : Elem) (below : List Elem) : Res IdPlace := do
  let a ← e.ancestor below
  if a.1.type == .optlist then .ok .option else do
  let b ← a.1.ancestor a.2
  if b.1.type == .env then .ok .envList else .ok .category

/-- comps_elem.c:644-661: the group id is added. -/
def groupidAdd (cx : Ctx) (gid : GroupId) (pl : IdPlace) (p : DocPtr) : Res DocPtr :=
  match pl with
  | .option => editLast cx environmentsSlot (fun x => .ok (x.addOptionId gid)) p
  | .envList => editLast cx environmentsSlot (fun x => .ok (x.addGroupId gid)) p
  | .category => editLast cx categoriesSlot (fun x => .ok (x.addGroupId gid)) p

/-- comps_elem.c:633-669 `comps_elem_groupid_preproc`; the group id is added filled. -/
def groupidPre (cx : Ctx) (e : Elem) (below : List Elem) (p : DocPtr) : Res DocPtr := do
  let pl ← idPlace e below
  groupidAdd cx (newGroupId e.attrs) pl p

/-- comps_elem.c:696-710 `comps_elem_match_preproc`, `comps_elem_package_preproc`,
`comps_elem_ignoredep_preproc`: `add` is called with the attributes `k` and `v`; the key is passed on
to a dictionary, which takes its length. -/
def pairPre (add : Doc → Bytes → CStr → Res Doc) (k v : Bytes) (e : Elem) (p : DocPtr) :
    Res DocPtr := do
  let d ← p.deref
  match e.attrs.get k with
  | none => .error .nullDeref
  | some key => do
    let d ← add d key (compsStr (e.attrs.get v))
    .ok (.live d)

/-- `.preproc` of `COMPS_ElemInfos` (comps_elem.c:22-260), called with the new element, already on the
stack, and the elements below it. -/
def preproc (cx : Ctx) (enc : Option Bytes) (e : Elem) (below : List Elem) (p : DocPtr) :
    Res DocPtr :=
  match e.type with
  | .doc => docPre enc
  | .group => entryPre cx groupOps Group.create e p
  | .category => entryPre cx categoryOps Category.create e p
  | .env => entryPre cx envOps Env.create e p
  | .packagereq => packagereqPre cx e p
  | .groupid => groupidPre cx e below p
  | .matchE => pairPre (Doc.addLangpack cx.lt) b!"name" b!"install" e p
  | .package => pairPre (Doc.addBlacklist cx.lt) b!"name" b!"arch" e p
  | .ignoredep => pairPre (Doc.addWhiteout cx.lt) b!"requires" b!"package" e p
  | _ => .ok p

/-! ## Handlers after the content -/

/-- What a handler at the end of an element leaves: the document, the entries it logs, and whether
`parsed->tmp_buffer` was set to NULL. -/
structure After where
  doc : DocPtr
  log : List LogEntry
  taken : Bool

/-- The end of a handler: `taken` says whether it sets `parsed->tmp_buffer` to NULL. -/
def after (taken : Bool) (r : Res (DocPtr × List LogEntry)) : Res After := do
  let x ← r
  .ok ⟨x.1, x.2, taken⟩

/-- comps_elem.c:479-498: set a flag that is absent. -/
def defaultFlag (cx : Ctx) (key : Bytes) (b : Bool) (props : RTree PVal) : RTree PVal :=
  match props.get key with
  | none => setNumProp cx.lt key props (if b then 1 else 0) false
  | some _ => props

/-- comps_elem.c:475-477, 518-523, 543-548: the required properties of an entry. -/
def requiredProps (props : RTree PVal) (p : Pos) : List LogEntry :=
  checkRequired (props.get b!"id") b!"id" p ++ checkRequired (props.get b!"name") b!"name" p ++
    checkRequired (props.get b!"desc") b!"description" p

/-- comps_elem.c:479-498: the three flags of a group. -/
def defaultFlags (cx : Ctx) (props : RTree PVal) : RTree PVal :=
  let props := defaultFlag cx b!"def" cx.opts.dflt props
  let props := defaultFlag cx b!"uservisible" cx.opts.uservisible props
  defaultFlag cx b!"biarchonly" cx.opts.biarchonly props

/-- comps_elem.c:466-500 `comps_elem_group_postproc`. -/
def groupPost (cx : Ctx) (p : Pos) (d : DocPtr) : Res After :=
  after false <| onLast cx groupsSlot (fun g =>
    .ok ({ g with props := defaultFlags cx g.props }, requiredProps g.props p)) d

/-- comps_elem.c:512-526, 537-551 `comps_elem_category_postproc`, `comps_elem_env_postproc`. -/
def entryPost {α : Type} (cx : Ctx) (o : EntryOps α) (p : Pos) (d : DocPtr) : Res After :=
  after false <| onLast cx o.slot (fun x => .ok (x, requiredProps (o.props x) p)) d

/-- comps_elem.c:559-564, 578-583: the entry logged for an empty list; a NULL list is dereferenced. -/
def emptyList {α : Type} (l : Option (List α)) (ty : ElemType) (p : Pos) : Res (List LogEntry) :=
  match l with
  | none => .error .nullDeref
  | some [] => do
    let n ← ty.infoName
    .ok [entry 22 (some n) p]
  | some (_ :: _) => .ok []

/-- comps_elem.c:558-564, 577-583: the test of a list of the last entry. -/
def checkList {α β : Type} (cx : Ctx) (sl : Slot (List α)) (list : α → Option (List β))
    (ty : ElemType) (p : Pos) (d : DocPtr) : Res After :=
  after false <| onLast cx sl (fun x => do
    let l ← emptyList (list x) ty p
    .ok (x, l)) d

/-- comps_elem.c:552-566 `comps_elem_grouplist_postproc`.  The entry is read as an environment in both
cases; `group_list` lies where `group_ids` of a category does (comps_doccategory.h:51-55,
comps_docenv.h:20-26). -/
def grouplistPost (cx : Ctx) (e : Elem) (below : List Elem) (p : Pos) (d : DocPtr) :
    Res After := do
  let a ← e.ancestor below
  if a.1.type == .env then checkList cx environmentsSlot (·.groupList) e.type p d
  else checkList cx categoriesSlot (·.groupIds) e.type p d

/-- comps_elem.c:575-585 `comps_elem_packagelist_postproc`. -/
def packagelistPost (cx : Ctx) (e : Elem) (p : Pos) (d : DocPtr) : Res After :=
  checkList cx groupsSlot (·.packages) e.type p d

/-- A change of the last item of a list that may be NULL (comps_elem.c:618, 671). -/
def mapLast {α : Type} (f : α → α) (l : Option (List α)) : Res (Option (List α)) :=
  match l with
  | none => .error .nullDeref
  | some l => do
    let x ← lastOf l
    .ok (some (l.dropLast ++ [f x]))

/-- comps_elem.c:617-631 `comps_elem_packagereq_postproc`. -/
def packagereqPost (cx : Ctx) (e : Elem) (p : Pos) (t : Option Bytes) (d : DocPtr) : Res After :=
  match t with
  | some b => after true <| onLast cx groupsSlot (fun g => do
      let l ← mapLast (fun q => q.setName (some b)) g.packages
      .ok ({ g with packages := l }, [])) d
  | none => do
    let r ← entries cx groupsSlot d
    let n ← e.type.infoName
    .ok ⟨.live r.2, [entry 24 (some n) p], true⟩

/-- comps_elem.c:673-693: the text becomes the name of the last group id. -/
def groupidName (cx : Ctx) (t : Option Bytes) (pl : IdPlace) (d : DocPtr) : Res DocPtr :=
  match pl with
  | .option => editLast cx environmentsSlot (fun x => do
      let l ← mapLast (fun q => q.setName t) x.optionList
      .ok { x with optionList := l }) d
  | .envList => editLast cx environmentsSlot (fun x => do
      let l ← mapLast (fun q => q.setName t) x.groupList
      .ok { x with groupList := l }) d
  | .category => editLast cx categoriesSlot (fun x => do
      let l ← mapLast (fun q => q.setName t) x.groupIds
      .ok { x with groupIds := l }) d

/-- comps_elem.c:670-695 `comps_elem_groupid_postproc`. -/
def groupidPost (cx : Ctx) (e : Elem) (below : List Elem) (t : Option Bytes) (d : DocPtr) :
    Res After := do
  let pl ← idPlace e below
  let d ← groupidName cx t pl d
  .ok ⟨d, [], true⟩

/-- comps_elem.c:744-745, 753-757, 764-767: a property given as text. -/
def setText {α : Type} (cx : Ctx) (o : EntryOps α) (key : Bytes) (p : Pos) (b : Bytes) (x : α) :
    α × List LogEntry :=
  (o.setProps x ((o.props x).set cx.lt key (some (.str (compsStr (some b))))),
    checkAlreadySet ((o.props x).get key) key p)

/-- comps_elem.c:743-769: where the text of `<id>`, `<name>`, `<description>` is stored. -/
def idNameDesc {α : Type} (cx : Ctx) (o : EntryOps α) (e : Elem) (p : Pos) (b : Bytes) (x : α) :
    α × List LogEntry :=
  if e.type == .id then setText cx o b!"id" p b x
  else if e.type == .name then
    match e.attrs.get b!"xml:lang" with
    | some lang =>
      (o.setNameByLang x ((o.nameByLang x).set cx.lt lang (some (.str (compsStr (some b))))), [])
    | none => setText cx o b!"name" p b x
  else
    match e.attrs.get b!"xml:lang" with
    | some lang =>
      (o.setDescByLang x ((o.descByLang x).set cx.lt lang (some (.str (compsStr (some b))))), [])
    | none => setText cx o b!"desc" p b x

/-- comps_elem.c:716-771 for one kind of entries. -/
def idNameDescOn {α : Type} (cx : Ctx) (o : EntryOps α) (e : Elem) (p : Pos) (t : Option Bytes)
    (d : DocPtr) : Res After :=
  after true <| onLast cx o.slot (fun x =>
    match t with
    | none => do
      let n ← e.type.infoName
      .ok (x, [entry 24 (some n) p])
    | some b => .ok (idNameDesc cx o e p b x)) d

/-- comps_elem.c:711-771 `comps_elem_idnamedesc_postproc`. -/
def idNameDescPost (cx : Ctx) (e : Elem) (below : List Elem) (p : Pos) (t : Option Bytes)
    (d : DocPtr) : Res After := do
  let a ← e.ancestor below
  if a.1.type == .group then idNameDescOn cx groupOps e p t d
  else if a.1.type == .category then idNameDescOn cx categoryOps e p t d
  else idNameDescOn cx envOps e p t d

/-- comps_elem.c:776-779, 803-806, 819-822: set a flag of the last group. -/
def setFlag (cx : Ctx) (key : Bytes) (n : Int) (d : DocPtr) : Res After :=
  after true <| onLast cx groupsSlot (fun g =>
    .ok ({ g with props := setNumProp cx.lt key g.props n false }, [])) d

/-- comps_elem.c:775-787, 802-813, 818-830: the tests of the text of a flag; `list` is fetched
first. -/
def flagText (cx : Ctx) (key : Bytes) (p : Pos) (t : Option Bytes) (d : DocPtr) : Res After :=
  if strcmp t (some b!"false") then setFlag cx key 0 d
  else if strcmp t (some b!"true") then setFlag cx key 1 d
  else do
    let r ← entries cx groupsSlot d
    .ok ⟨.live r.2, [entry 5 t p], true⟩

/-- comps_elem.c:772-788 `comps_elem_default_postproc`. -/
def defaultPost (cx : Ctx) (p : Pos) (t : Option Bytes) (d : DocPtr) : Res After :=
  flagText cx b!"def" p t d

/-- comps_elem.c:799-831 `comps_elem_uservisible_postproc`, `comps_elem_biarchonly_postproc`: the C
library's `strcmp` gets the text, which may be NULL. -/
def strictFlagPost (cx : Ctx) (key : Bytes) (p : Pos) (t : Option Bytes) (d : DocPtr) :
    Res After :=
  match t with
  | none => do
    let _ ← entries cx groupsSlot d
    .error .nullDeref
  | some _ => flagText cx key p t d

/-- comps_elem.c:789-798 `comps_elem_langonly_postproc`. -/
def langonlyPost (cx : Ctx) (p : Pos) (t : Option Bytes) (d : DocPtr) : Res After :=
  after true <| onLast cx groupsSlot (fun g =>
    .ok ({ g with props := setStrProp cx.lt b!"langonly" g.props t },
      checkAlreadySet (g.props.get b!"langonly") b!"langonly" p)) d

/-- `isspace` of the C library in the "C" locale (comps_parse.c:37, comps_elem.c:863). -/
def isSpace (c : UInt8) : Bool := c == 32 || (9 ≤ c && c ≤ 13)

/-- A decimal digit, for `%d` (comps_elem.c:863). -/
def isDigit (c : UInt8) : Bool := 48 ≤ c && c ≤ 57

/-- The number written by decimal digits, for `%d` (comps_elem.c:863). -/
def digitsVal (l : Bytes) : Nat := l.foldl (fun n c => 10 * n + (c.toNat - 48)) 0

/-- The optional sign of a number, for `%d` (comps_elem.c:863). -/
def signOf : Bytes → Bool × Bytes
  | 45 :: r => (true, r)
  | 43 :: r => (false, r)
  | r => (false, r)

/-- comps_elem.c:863 `sscanf(text, "%d", ...)`: `none` if nothing is converted; a value that does not
fit in `int` is undefined behaviour. -/
def scanInt (t : Bytes) : Res (Option Int) :=
  let st := signOf (t.dropWhile isSpace)
  let ds := st.2.takeWhile isDigit
  if ds.isEmpty then .ok none else
  let v : Int := if st.1 then -(digitsVal ds : Int) else (digitsVal ds : Int)
  if -2147483648 ≤ v ∧ v ≤ 2147483647 then .ok (some v) else .error .badConversion

/-- comps_elem.c:862-863: `sscanf` into the stored number. -/
def scanInto (old : PVal) (t : Option Bytes) : Res PVal :=
  match t with
  | none => .error .nullDeref
  | some b => do
    let r ← scanInt b
    match r, old with
    | none, v => .ok v
    | some n, .num _ => .ok (.num n)
    | some _, _ => .error .typeConfusion

/-- comps_elem.c:854-863 on the last entry.  `elem->name` is NULL for this element
(comps_elem.c:903-911).  The number is changed through the pointer to the stored object. -/
def displayOrder {α : Type} (cx : Ctx) (o : EntryOps α) (e : Elem) (p : Pos) (t : Option Bytes)
    (x : α) : Res (α × List LogEntry) := do
  let old := (o.props x).get b!"display_order"
  let v ← scanInto (old.getD (.num 0)) t
  .ok (o.setProps x ((o.props x).set cx.lt b!"display_order" (some v)),
    if old.isSome then [entry 3 e.name p] else [])

/-- comps_elem.c:832-865 `comps_elem_display_order_postproc`. -/
def displayOrderPost (cx : Ctx) (e : Elem) (below : List Elem) (p : Pos) (t : Option Bytes)
    (d : DocPtr) : Res After := do
  let a ← e.ancestor below
  if a.1.type == .category then
    after true <| onLast cx categoryOps.slot (displayOrder cx categoryOps e p t) d
  else if a.1.type == .env then
    after true <| onLast cx envOps.slot (displayOrder cx envOps e p t) d
  else after true <| onLast cx groupOps.slot (displayOrder cx groupOps e p t) d

/-- `.postproc` of `COMPS_ElemInfos` (comps_elem.c:22-260), called with the last element and the ones
below it; `t` is `parsed->tmp_buffer`. -/
def postproc (cx : Ctx) (e : Elem) (below : List Elem) (p : Pos) (t : Option Bytes) (d : DocPtr) :
    Res After :=
  match e.type with
  | .group => groupPost cx p d
  | .category => entryPost cx categoryOps p d
  | .env => entryPost cx envOps p d
  | .id => idNameDescPost cx e below p t d
  | .name => idNameDescPost cx e below p t d
  | .desc => idNameDescPost cx e below p t d
  | .default => defaultPost cx p t d
  | .langonly => langonlyPost cx p t d
  | .uservisible => strictFlagPost cx b!"uservisible" p t d
  | .biarchonly => strictFlagPost cx b!"biarchonly" p t d
  | .packagelist => packagelistPost cx e p d
  | .packagereq => packagereqPost cx e p t d
  | .grouplist => grouplistPost cx e below p d
  | .groupid => groupidPost cx e below t d
  | .displayOrder => displayOrderPost cx e below p t d
  | _ => .ok ⟨d, [], false⟩

/-! ## Events -/

/-- comps_parse.c:446-463: the attribute names found in the table are taken from the list of keys,
each once. -/
def unknownAttrs (known keys : List Bytes) : List Bytes :=
  known.foldl (fun ks k => ks.erase k) keys

/-- comps_parse.c:438-471 `comps_parse_check_attributes`: the entries it logs. -/
def checkAttributes (cx : Ctx) (e : Elem) (p : Pos) : Res (List LogEntry) := do
  let known ← attributes cx e.type
  let n ← e.type.infoName
  .ok ((unknownAttrs known e.attrs.keys).map fun k =>
    ⟨27, [some (.str (compsStr (some k))), some (.str (compsStr (some n))),
      some (.num p.line), some (.num p.col)]⟩)

/-- comps_elem.c:895-929 `comps_elem_create`, and comps_parse.c:352-369 for the fields `valid` and
`ancestor`.  The attribute dictionary is a `COMPS_RTree` (comps_radix.c:189-344, 462-598), which has
the statements of the `COMPS_ObjRTree` modelled by `RTree`. -/
def newElem (cx : Ctx) (stack : List Elem) (name : Bytes) (attrs : List (Bytes × Bytes)) : Elem :=
  let ty := getType name
  let asks := (ancestors ty).head? != some .none
  { name := if ty == .unknown then some name else none
    valid :=
      if asks then
        match stack with
        | [] => false
        | top :: _ => (ancestors ty).any fun a => a == top.type && top.valid
      else ty != .unknown
    ancSet := asks && !stack.isEmpty
    type := ty
    attrs := attrs.foldl (fun t a => t.set cx.lt a.1 (some a.2)) RTree.create }

/-- comps_parse.c:370-375: an element that is not valid is logged. -/
def logInvalid (e : Elem) (name : Bytes) (p : Pos) : List LogEntry :=
  if e.valid then [] else [entry 16 (some name) p]

/-- comps_parse.c:376-385: text before the element is logged; the message shows the first piece. -/
def logText (p : Pos) (text : List Bytes) : List LogEntry :=
  match text with
  | [] => []
  | c :: _ => [entry 23 (some c) p]

/-- comps_parse.c:376-385: the buffer is emptied and its length reset only if it has pieces. -/
def dropText (s : Parsed) : Parsed :=
  match s.textBuffer with
  | [] => s
  | _ :: _ => { s with textBuffer := [], textLen := 0 }

/-- comps_parse.c:395-400: the handler of a valid element. -/
def openElem (cx : Ctx) (enc : Option Bytes) (e : Elem) (below : List Elem) (p : DocPtr) :
    Res DocPtr :=
  if e.valid then preproc cx enc e below p else .ok p

/-- comps_parse.c:334-407 `comps_parse_start_elem_handler`. -/
def startElem (cx : Ctx) (p : Pos) (name : Bytes) (attrs : List (Bytes × Bytes)) (s : Parsed) :
    Res Parsed := do
  let e := newElem cx s.stack name attrs
  let log := s.log ++ logInvalid e name p ++ logText p s.textBuffer
  let l ← checkAttributes cx e p
  let doc ← openElem cx s.enc e s.stack s.doc
  .ok { dropText s with stack := e :: s.stack, log := log ++ l, doc := doc }

/-- comps_parse.c:33-40 `__comps_is_whitespace_only`. -/
def blank (t : Bytes) : Bool := t.all isSpace

/-- comps_parse.c:410-436 `comps_parse_char_data_handler`. -/
def charData (chunk : Bytes) (s : Parsed) : Parsed :=
  if blank chunk then s
  else { s with textBuffer := s.textBuffer ++ [chunk], textLen := s.textLen + chunk.length }

/-- comps_parse.c:286-305: the pieces joined in a buffer of `text_buffer_len + 1` bytes, or NULL if
that length is 0. -/
def collectText (s : Parsed) : Res (Option Bytes) :=
  if s.textLen = 0 then
    match s.textBuffer with
    | [] => .ok none
    | _ :: _ => .error .nullDeref
  else if s.textBuffer.flatten.length ≤ s.textLen then .ok (some s.textBuffer.flatten)
  else .error .outOfBounds

/-- comps_parse.c:308-318: the handler of a valid element, and text it leaves. -/
def closeElem (cx : Ctx) (p : Pos) (e : Elem) (below : List Elem) (t : Option Bytes) (d : DocPtr) :
    Res (DocPtr × List LogEntry) :=
  if e.valid then do
    let r ← postproc cx e below p t d
    .ok (r.doc, r.log ++ if !r.taken && t.isSome then [entry 23 t p] else [])
  else .ok (d, [])

/-- comps_parse.c:275-326 `comps_parse_end_elem_handler`. -/
def endElem (cx : Ctx) (p : Pos) (name : Bytes) (s : Parsed) : Res Parsed := do
  let t ← collectText s
  match s.stack with
  | [] => .error .nullDeref
  | e :: below =>
    if getType name == e.type then do
      let r ← closeElem cx p e below t s.doc
      .ok { s with textBuffer := [], textLen := 0, stack := below, doc := r.1, log := s.log ++ r.2 }
    else .ok { s with textBuffer := [], textLen := 0 }

/-- comps_parse.c:129-139 `comps_parse_start_doctype`. -/
def startDoctype (name : Bytes) (sysid pubid : Option Bytes) (s : Parsed) : Parsed :=
  { s with doctypeName := some (compsStr (some name)), doctypeSysid := some (compsStr sysid)
           doctypePubid := some (compsStr pubid) }

/-- One handler call (comps_parse.c:55-59). -/
def step (cx : Ctx) (s : Parsed) (e : Pos × Event) : Res Parsed :=
  match e.2 with
  | .start n attrs => startElem cx e.1 n attrs s
  | .text c => .ok (charData c s)
  | .stop n => endElem cx e.1 n s
  | .doctype n sy pu => .ok (startDoctype n sy pu s)

/-- The handler calls of one piece of input. -/
def steps (cx : Ctx) (s : Parsed) (es : List (Pos × Event)) : Res Parsed := es.foldlM (step cx) s

/-! ## Parsing -/

/-- comps_log.c `comps_log_error`, `comps_log_error_x`: append an entry. -/
def addLog (s : Parsed) (code : Nat) (args : List (Option PVal)) : Parsed :=
  { s with log := s.log ++ [⟨code, args⟩] }

/-- comps_parse.c:48-87 `comps_parse_parsed_init` (allocations succeed). -/
def init (enc : Option Bytes) : Parsed := ⟨[], .null, [], 0, [], false, enc, none, none, none⟩

/-- comps_parse.c:89-110 `comps_parse_parsed_reinit`.  The document is released but the pointer is kept
(106), and `text_buffer_len` is not reset.  Simplification: the parser is taken to hold the only
reference to its document. -/
def reinit (s : Parsed) : Res Parsed :=
  let s' := { s with stack := [], textBuffer := [], log := [], fatal := false
                     doctypeName := none, doctypeSysid := none, doctypePubid := none }
  match s.doc with
  | .null => .ok s'
  | .live d => do
    let _ ← Doc.destroy d
    .ok { s' with doc := .freed }
  | .freed => .error .useAfterFree

/-- comps_parse.c:228-235, 257-264: the handler calls of one piece, and the error it ended with. -/
def feed (cx : Ctx) (s : Parsed) (c : Chunk) : Res Parsed := do
  let s ← steps cx s c.events
  match c.error with
  | none => .ok s
  | some (p, msg) =>
    .ok { addLog s 4 [some (.num p.line), some (.num p.col), some (.str (compsStr (some msg)))] with
      fatal := true }

/-- comps_parse.c:179-199: a doctype field of the document. -/
def doctypeField (new old : Option CStr) : Option CStr :=
  match new with
  | some v => some v
  | none => old

/-- comps_parse.c:178-200 `__comps_after_parse`. -/
def afterParse (s : Parsed) : Res Parsed :=
  if s.doctypeName.isNone && s.doctypeSysid.isNone && s.doctypePubid.isNone then .ok s else
  match s.doc with
  | .null => .ok s
  | .freed => .error .useAfterFree
  | .live d => .ok { s with doc := .live { d with
      doctypeName := doctypeField s.doctypeName d.doctypeName
      doctypeSysid := doctypeField s.doctypeSysid d.doctypeSysid
      doctypePubid := doctypeField s.doctypePubid d.doctypePubid } }

/-- comps_parse.c:242-247, 267-272: the result. -/
def resultCode (s : Parsed) : Int :=
  if !s.fatal && s.log.isEmpty then 0 else if !s.fatal then 1 else -1

/-- comps_parse.c:202-248 `comps_parse_file`; `none` is a NULL file.  Each piece is one pass of the
loop. -/
def parseFile (cx : Ctx) (s : Parsed) (f : Option (List Chunk)) : Res (Int × Parsed) :=
  match f with
  | none => .ok (-1, { addLog s 18 [] with fatal := true })
  | some cs => do
    let s ← reinit s
    let s ← cs.foldlM (feed cx) s
    let s ← afterParse s
    .ok (resultCode s, s)

/-- comps_parse.c:250-273 `comps_parse_str`: the parser is not reset. -/
def parseStr (cx : Ctx) (s : Parsed) (c : Chunk) : Res (Int × Parsed) := do
  let s ← feed cx s c
  let s ← afterParse s
  .ok (resultCode s, s)

end Parse
end Comps
