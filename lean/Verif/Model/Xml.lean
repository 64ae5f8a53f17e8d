import Verif.Model.Doc

/-!
# XML output

`/repo/libcomps/src/comps_docpackage.c`, `comps_docgroupid.c`, `comps_docgroup.c`,
`comps_doccategory.c`, `comps_docenv.c`, `comps_doc.c` (`*_xml`, `comps2xml_f`, `comps2xml_str`) and the
helpers of `comps_utils.c`.

The writer of libxml2 is outside of the library.  It is modelled by the calls made to it, each with
its result.  A call that the state of the writer does not allow fails; besides that any call may fail
(the field `fails` says which, by position), as a full buffer or a character that XML does not allow
makes it do.  A failed call has no effect on the writer.
-/

namespace Comps
open Comps.Obj Comps.Text

/-- comps_log.h `COMPS_LogEntry`: the code and the arguments (NULL is `none`). -/
structure LogEntry where
  code : Nat
  args : List (Option PVal)
  deriving DecidableEq, Repr

namespace Xml

/-- comps_types.h:28-44 `COMPS_XMLOptions`. -/
structure Options where
  emptyGroups : Bool
  emptyCategories : Bool
  emptyEnvironments : Bool
  emptyLangpacks : Bool
  emptyBlacklist : Bool
  emptyWhiteout : Bool
  emptyPackages : Bool
  emptyGrouplist : Bool
  emptyOptionlist : Bool
  biarchonlyExplicit : Bool
  uservisibleExplicit : Bool
  defaultExplicit : Bool
  gidDefaultExplicit : Bool
  baoExplicit : Bool
  archOutput : Bool

/-- comps_types.c:22-38 `COMPS_XMLDefaultOptions`. -/
def Options.standard : Options :=
  ⟨false, false, false, false, false, false, false, false, false, false, false, false, false, false,
    false⟩

/-- comps_default.h `COMPS_DefaultsOptions`. -/
structure Defaults where
  biarchonly : Bool
  uservisible : Bool
  dflt : Bool
  pkgtype : PkgType

/-- comps_default.c:4-9 `COMPS_DDefaultsOptions`. -/
def Defaults.standard : Defaults := ⟨false, true, false, .mandatory⟩

/-- The functions of the libxml2 writer that the library calls (comps_doc.c:187-205, 650-655 and the
functions below). -/
inductive Call where
  | startDocument (encoding : Bytes)
  | startDTD (name pubid sysid : Option Bytes)
  | endDTD
  | startElement (name : Bytes)
  | attribute (name value : Bytes)
  | string (text : Bytes)
  | endElement
  | endDocument
  deriving DecidableEq, Repr

/-- State of an output run: the calls made so far with their results, the open elements (innermost
first, with a flag telling whether the start tag may still get attributes), the log of the document
and whether that log exists (`Doc.logSet`). -/
structure St where
  fails : Nat → Bool
  calls : List (Call × Bool)
  opened : List (Bytes × Bool)
  log : List LogEntry
  logSet : Bool

/-- An output function of the library (comps_doc.c:639-814 and the like): it may change the state
and may leave defined behaviour. -/
abbrev M (α : Type) := StateT St (Except Fault) α

/-- Does the state of the libxml2 writer (used at comps_doc.c:185) allow the call?  An attribute
needs an open start tag, text and an end tag need an open element, a DTD needs a name and no element
before it, and a public identifier needs a system identifier. -/
def allows (opened : List (Bytes × Bool)) : Call → Bool
  | .attribute _ _ => match opened with
    | (_, true) :: _ => true
    | _ => false
  | .string _ => !opened.isEmpty
  | .endElement => !opened.isEmpty
  | .startDTD name pubid sysid =>
    opened.isEmpty && (name.getD []) != [] && (pubid.isNone || sysid.isSome)
  | _ => true

/-- Open elements after a successful call (libxml2 writer, used at comps_doc.c:185). -/
def after (opened : List (Bytes × Bool)) : Call → List (Bytes × Bool)
  | .startElement n => match opened with
    | (m, _) :: rest => (n, true) :: (m, false) :: rest
    | [] => [(n, true)]
  | .string _ => match opened with
    | (m, _) :: rest => (m, false) :: rest
    | [] => []
  | .endElement => match opened.drop 1 with
    | (m, _) :: rest => (m, false) :: rest
    | [] => []
  | .endDocument => []
  | _ => opened

/-- One call of a writer function (comps_doc.c:650-661 and everywhere below); the result is
`true` when the return code is not negative. -/
def call (c : Call) : M Bool := fun s =>
  if allows s.opened c && !s.fails s.calls.length then
    .ok (true, { s with calls := s.calls ++ [(c, true)], opened := after s.opened c })
  else .ok (false, { s with calls := s.calls ++ [(c, false)] })

/-- comps_log.c:121-127 `comps_log_error`: an entry is added to `doc->log`.  The text printed for it
(when `std_out` is set) is modelled in `Verif/Model/Text.lean`. -/
def logError (code : Nat) (args : List (Option PVal)) : M Unit := fun s =>
  if s.logSet then .ok ((), { s with log := s.log ++ [⟨code, args⟩] }) else .error .uninitialised

/-- A text function of the library used by the output. -/
def text (r : Res Bytes) : M Bytes := fun s =>
  match r with
  | .ok b => .ok (b, s)
  | .error f => .error f

/-- comps_utils.h:175-179 `COMPS_XMLRET_CHECK`, comps_utils.c:141-146 `__comps_check_xml_get`: go on
when the call succeeded, otherwise log and return -1. -/
def check (ok : Bool) (k : M Int) : M Int :=
  if ok then k else do
    logError 20 []
    return -1

/-- comps_obj.c:64-73 `comps_object_tostr` on a string (comps_obj.c:135-145); NULL gives the empty
text. -/
def strText : Option CStr → Res Bytes
  | none => .ok []
  | some s => Buf.str <$> strToStr s.val

/-- The texts of the elements of a list of strings (comps_utils.c:98-101, comps_objlist.c:455-464). -/
def strTexts : List CStr → Res (List Bytes)
  | [] => .ok []
  | a :: as => do return (← strText (some a)) :: (← strTexts as)

/-- comps_obj.c:64-73 `comps_object_tostr` on a value: comps_obj.c:96-107, 135-145,
comps_objlist.c:448-488. -/
def valText : PVal → Res Bytes
  | .str s => strText (some s)
  | .num n => Buf.str <$> numToStr n
  | .list l => do return (← listToStr (← strTexts l)).str

mutual
/-- comps_obj.c:64-73 `comps_object_tostr` on an element of a value list of a multi-dictionary. -/
def mvalText : MVal CStr → Res Bytes
  | .one s => strText (some s)
  | .nested l => do return (← listToStr (← mvalTexts l)).str
/-- The texts of the elements of a value list (comps_objlist.c:455-464). -/
def mvalTexts : List (MVal CStr) → Res (List Bytes)
  | [] => .ok []
  | a :: as => do return (← mvalText a) :: (← mvalTexts as)
end

/-- comps_utils.c:48-60 `__comps_num2boolstr`; any other object than a number is read through the
wrong structure. -/
def boolText : PVal → Res Bytes
  | .num n => .ok (if n ≠ 0 then b!"true" else b!"false")
  | _ => .error .typeConfusion

/-- comps_utils.c:39-46 `__comps_xml_prop`: the three calls are made whatever their results. -/
def xmlProp (key val : Bytes) : M Bool := do
  let a ← call (.startElement key)
  let b ← call (.string val)
  let c ← call .endElement
  return a && b && c

/-- comps_utils.c:116-124 `__comps_xml_arch` (with 86-114 `__comps_xml_arch_str`). -/
def xmlArch : Option (List CStr) → M Bool
  | none => pure true
  | some [] => pure true
  | some l => do
    let items ← fun s => (strTexts l).map fun x => (x, s)
    let str ← text (Buf.str <$> archStr items)
    call (.attribute b!"arch" str)

/-- The `arch` attribute of a package or group id (comps_docpackage.c:154-158,
comps_docgroupid.c:113-118): only written when asked for. -/
def xmlArchOpt (o : Options) (arches : Option (List CStr)) : M Bool :=
  if o.archOutput then xmlArch arches else pure true

/-- The `arch` attribute of a group, category or environment (comps_docgroup.c:310-315,
comps_doccategory.c:234-239, comps_docenv.c:317-322). -/
def xmlArchProp (o : Options) (props : RTree PVal) : M Bool :=
  if o.archOutput then do
    let arches ← fun s => (getArchesProp props).map fun x => (x, s)
    xmlArch arches
  else pure true

/-- "true" or "false" (comps_docgroupid.c:120-125, comps_docpackage.c:178-183). -/
def boolStr (b : Bool) : Bytes := if b then b!"true" else b!"false"

/-- comps_docpackage.c:170-176: the `requires` attribute of a package, when there is a text for it.
`ret` is the result of the call before. -/
def xmlRequires (r : Option CStr) (ret : Bool) : M Bool :=
  match r with
  | none => pure ret
  | some r => do
    let str ← text (strText (some r))
    if str.isEmpty then pure ret else call (.attribute b!"requires" str)

/-- comps_docpackage.c:178-197: the `basearchonly` attribute of a package. -/
def xmlBao (o : Options) (b : Option Int) (ret : Bool) : M Bool :=
  if o.baoExplicit then call (.attribute b!"basearchonly" (boolStr b.isSome))
  else if b.getD 0 ≠ 0 then call (.attribute b!"basearchonly" b!"true")
  else pure ret

/-- comps_docpackage.c:143-205 `comps_docpackage_xml`.  The result of a call that is overwritten
before being tested is dropped, as in the code. -/
def xmlPackage (o : Options) (p : Package) : M Int := do
  let ret ← call (.startElement b!"packagereq")
  check ret do
  let ret ← xmlArchOpt o p.arches
  check ret do
  let ret ← call (.attribute b!"type" p.type.xml)
  let ret ← xmlRequires p.requires ret
  check ret do
  let ret ← xmlBao o p.basearchonly ret
  check ret do
  let str ← text (strText p.name)
  let ret ← call (.string str)
  check ret do
  let ret ← call .endElement
  check ret do
  return 0

/-- comps_docgroupid.c:119-134: the `default` attribute of a group id.  The result of the second
branch is not tested. -/
def xmlGidDefault (o : Options) (dflt : Bool) : M Bool :=
  if o.gidDefaultExplicit then call (.attribute b!"default" (boolStr dflt))
  else if dflt then do
    let _ ← call (.attribute b!"default" b!"true")
    pure true
  else pure true

/-- comps_docgroupid.c:102-142 `comps_docgroupid_xml`. -/
def xmlGroupId (o : Options) (g : GroupId) : M Int := do
  let ret ← call (.startElement b!"groupid")
  check ret do
  let ret ← xmlArchOpt o g.arches
  check ret do
  let ret ← xmlGidDefault o g.dflt
  check ret do
  let str ← text (strText g.name)
  let ret ← call (.string str)
  check ret do
  let ret ← call .endElement
  check ret do
  return 0

/-- comps_docgroup.c:364-367: the packages one after the other; results are dropped. -/
def xmlPackages (o : Options) : List Package → M Unit
  | [] => pure ()
  | p :: ps => do
    let _ ← xmlPackage o p
    xmlPackages o ps

/-- comps_doccategory.c:285-288, comps_docenv.c:372-375, 383-386: the group ids one after the other;
results are dropped. -/
def xmlGroupIds (o : Options) : List GroupId → M Unit
  | [] => pure ()
  | p :: ps => do
    let _ ← xmlGroupId o p
    xmlGroupIds o ps

/-- comps_docgroup.c:344-358, comps_doccategory.c:253-278, comps_docenv.c:337-362: the translations.
`k` is what follows the loop. -/
def xmlLangs (tag : Bytes) : List (Bytes × PVal) → M Int → M Int
  | [], k => k
  | (lang, v) :: rest, k => do
    let ret ← call (.startElement tag)
    check ret do
    let ret ← call (.attribute b!"xml:lang" lang)
    check ret do
    let str ← text (valText v)
    let ret ← call (.string str)
    check ret do
    let ret ← call .endElement
    check ret do
    xmlLangs tag rest k

/-- comps_docgroup.c:318-336 for a property that is always written when there is one
(`explicit[i]`, no default), comps_doccategory.c:242-247, comps_docenv.c:325-330. -/
def xmlPlain (tag : Bytes) (v : Option PVal) : M Unit :=
  match v with
  | none => pure ()
  | some v => do
    let str ← text (valText v)
    let _ ← xmlProp tag str
    pure ()

/-- comps_docgroup.c:318-336 for one of the three flags: `expl` is the option, `dflt` the default
value. -/
def xmlFlag (tag : Bytes) (expl dflt : Bool) (v : Option PVal) : M Unit :=
  match v with
  | none =>
    if expl then do
      let _ ← xmlProp tag (boolStr dflt)
      pure ()
    else pure ()
  | some v => do
    let str ← text (boolText v)
    if expl || str != boolStr dflt then
      let _ ← xmlProp tag str
      pure ()
    else pure ()

/-- comps_docgroup.c:362-370, comps_doccategory.c:282-291, comps_docenv.c:369-378, 380-389: the list
element, written when the list is not empty or when the option says so. -/
def xmlList {α : Type} (tag : Bytes) (opt : Bool) (items : List α) (write : List α → M Unit)
    (k : M Int) : M Int :=
  if !items.isEmpty || opt then do
    let ret ← call (.startElement tag)
    check ret do
    write items
    let ret ← call .endElement
    check ret k
  else k

/-- comps_docgroup.c:373-375, comps_doccategory.c:292-294, comps_docenv.c:390-392: the end tag. -/
def xmlEnd : M Int := do
  let ret ← call .endElement
  check ret do
  return 0

/-- comps_docgroup.c:260-376 `comps_docgroup_xml`.  `group->packages->len` of a NULL list is a
fault. -/
def xmlGroup (o : Options) (d : Defaults) (g : Group) : M Int :=
  match g.packages with
  | none => fun _ => .error .nullDeref
  | some packages =>
    if packages.isEmpty && !o.emptyGroups then do
      logError 25 [g.props.get b!"id"]
      return 1
    else do
      let ret ← call (.startElement b!"group")
      check ret do
      let ret ← xmlArchProp o g.props
      check ret do
      xmlPlain b!"id" (g.props.get b!"id")
      xmlPlain b!"name" (g.props.get b!"name")
      xmlLangs b!"name" g.nameByLang.pairs do
      xmlPlain b!"description" (g.props.get b!"desc")
      xmlLangs b!"description" g.descByLang.pairs do
      xmlFlag b!"default" o.defaultExplicit d.dflt (g.props.get b!"def")
      xmlFlag b!"uservisible" o.uservisibleExplicit d.uservisible (g.props.get b!"uservisible")
      xmlFlag b!"biarchonly" o.biarchonlyExplicit d.biarchonly (g.props.get b!"biarchonly")
      xmlPlain b!"display_order" (g.props.get b!"display_order")
      xmlPlain b!"langonly" (g.props.get b!"langonly")
      xmlList b!"packagelist" o.emptyPackages packages (xmlPackages o) xmlEnd

/-- comps_doccategory.c:210-295 `comps_doccategory_xml`. -/
def xmlCategory (o : Options) (c : Category) : M Int :=
  match c.groupIds with
  | none => fun _ => .error .nullDeref
  | some ids =>
    if ids.isEmpty && !o.emptyCategories then do
      logError 25 [c.props.get b!"id"]
      return 1
    else do
      let ret ← call (.startElement b!"category")
      check ret do
      let ret ← xmlArchProp o c.props
      check ret do
      xmlPlain b!"id" (c.props.get b!"id")
      xmlPlain b!"name" (c.props.get b!"name")
      xmlLangs b!"name" c.nameByLang.pairs do
      xmlPlain b!"description" (c.props.get b!"desc")
      xmlLangs b!"description" c.descByLang.pairs do
      xmlPlain b!"display_order" (c.props.get b!"display_order")
      xmlList b!"grouplist" o.emptyGrouplist ids (xmlGroupIds o) xmlEnd

/-- comps_docenv.c:292-393 `comps_docenv_xml`.  When `group_list` is not empty, a NULL `option_list` is
read at line 380 only; the fault is put at the beginning here. -/
def xmlEnv (o : Options) (e : Env) : M Int :=
  match e.groupList, e.optionList with
  | some groups, some options =>
    if groups.isEmpty && options.isEmpty && !o.emptyEnvironments then do
      logError 25 [e.props.get b!"id"]
      return 1
    else do
      let ret ← call (.startElement b!"environment")
      check ret do
      let ret ← xmlArchProp o e.props
      check ret do
      xmlPlain b!"id" (e.props.get b!"id")
      xmlPlain b!"name" (e.props.get b!"name")
      xmlLangs b!"name" e.nameByLang.pairs do
      xmlPlain b!"description" (e.props.get b!"desc")
      xmlLangs b!"description" e.descByLang.pairs do
      xmlPlain b!"display_order" (e.props.get b!"display_order")
      xmlList b!"grouplist" o.emptyGrouplist groups (xmlGroupIds o) do
      xmlList b!"optionlist" o.emptyOptionlist options (xmlGroupIds o) xmlEnd
  | _, _ => fun _ => .error .nullDeref

/-- `ret += tmpret` on a `signed char` (comps_doc.c:667, 678, 689).  Conversion of an `int` outside
of the range is implementation defined; gcc and clang keep the low byte. -/
def schar (n : Int) : Int := (n + 128) % 256 - 128

/-- comps_doc.c:660-668, 671-679, 682-690: the entries of one kind.  `ret` is the return value so
far, `k` what follows the loop. -/
def xmlEntries {α : Type} (write : α → M Int) : List α → Int → (Int → M Int) → M Int
  | [], ret, k => k ret
  | x :: xs, ret, k => do
    let tmpret ← write x
    if tmpret = -1 then return -1
    else xmlEntries write xs (schar (ret + tmpret)) k

/-- comps_doc.c:701-725, 741-763, 780-801: entries with two attributes.  The results of the
attribute calls are dropped. -/
def xmlPairs (tag key value : Bytes) : List (Bytes × Res Bytes) → M Int → M Int
  | [], k => k
  | (a, b) :: rest, k => do
    let ret ← call (.startElement tag)
    check ret do
    let _ ← call (.attribute key a)
    let str ← text b
    let _ ← call (.attribute value str)
    let ret ← call .endElement
    check ret do
    xmlPairs tag key value rest k

/-- comps_doc.c:693-730, 733-768, 771-808: one of the three blocks of pairs, written when the `len`
of the dictionary is not zero. -/
def xmlBlock (block tag key value : Bytes) (len : Int) (items : List (Bytes × Res Bytes))
    (k : M Int) : M Int :=
  if len ≠ 0 then do
    let ret ← call (.startElement block)
    check ret do
    xmlPairs tag key value items do
    let ret ← call .endElement
    check ret k
  else k

/-- The elements written for a multi-dictionary (comps_doc.c:741-743, 780-782): one for each element
of each value list. -/
def mItems (t : MTree CStr) : List (Bytes × Res Bytes) :=
  (MTree.pairs t).flatMap fun e => e.2.map fun v => (e.1, mvalText v)

/-- A getter of the document used by the output (comps_doc.c:658, 669, 680, 691, 732, 770). -/
def getPart {α : Type} (lt : UInt8 → UInt8 → Bool) (s : Slot α) (d : Doc) : M (α × Doc) :=
  fun st => (d.getObj lt s).map fun x => (x, st)

/-- `doc->doctype_name->val` and the like (comps_doc.c:650-652). -/
def doctypeText : Option CStr → M (Option Bytes)
  | some s => pure s.val
  | none => fun _ => .error .nullDeref

/-- comps_doc.c:639-814 `comps_doc_xml`. -/
def xmlDoc (lt : UInt8 → UInt8 → Bool) (o : Options) (df : Defaults) (d : Doc) : M Int := do
  let name ← doctypeText d.doctypeName
  let pubid ← doctypeText d.doctypePubid
  let sysid ← doctypeText d.doctypeSysid
  let ret ← call (.startDTD name pubid sysid)
  let _ ← call .endDTD
  check ret do
  let ret ← call (.startElement b!"comps")
  check ret do
  let (groups, d) ← getPart lt groupsSlot d
  xmlEntries (xmlGroup o df) groups 0 fun ret => do
  let (cats, d) ← getPart lt categoriesSlot d
  xmlEntries (xmlCategory o) cats ret fun ret => do
  let (envs, d) ← getPart lt environmentsSlot d
  xmlEntries (xmlEnv o) envs ret fun ret => do
  let (packs, d) ← getPart lt langpacksSlot d
  xmlBlock b!"langpacks" b!"match" b!"name" b!"install" packs.len
    (packs.pairs.map fun e => (e.1, valText e.2)) do
  let (black, d) ← getPart lt blacklistSlot d
  xmlBlock b!"blacklist" b!"package" b!"name" b!"arch" black.len (mItems black) do
  let (white, _) ← getPart lt whiteoutSlot d
  xmlBlock b!"whiteout" b!"ignoredep" b!"requires" b!"package" white.len (mItems white) do
  let ok ← call .endElement
  check ok do
  return ret

/-- comps_doc.c:188-192, 233-237: the encoding written in the first line. -/
def xmlEncoding : Option CStr → Res Bytes
  | some e => strText (some e)
  | none => .ok b!"UTF-8"

/-- comps_doc.c:187-196, 232-238: the start of the XML document. -/
def startXml (d : Doc) : M Bool := do
  let enc ← text (xmlEncoding d.encoding)
  call (.startDocument enc)

/-- Log "Can't generate xml" when the condition holds (comps_doc.c:195-196, 204-205, 238, 245-250). -/
def logIf (c : Bool) : M Unit := if c then logError 20 [] else pure ()

/-- comps_doc.c:177-219 `comps2xml_f`: `doc->log` is written to first.  Saving the tree to the file
(line 207) is not modelled. -/
def toFile (lt : UInt8 → UInt8 → Bool) (o : Option Options) (df : Option Defaults) (d : Doc) :
    M Int := do
  (fun s => if s.logSet then .ok ((), s) else .error .uninitialised : M Unit)
  let ok ← startXml d
  logIf !ok
  let genret ← xmlDoc lt (o.getD .standard) (df.getD .standard) d
  let ok ← call .endDocument
  logIf !ok
  return genret

/-- comps_doc.c:221-271 `comps2xml_str`: the calls made; the text is produced from them by libxml2.
The result of the model is `genret`, which the C function only logs. -/
def toStr (lt : UInt8 → UInt8 → Bool) (o : Option Options) (df : Option Defaults) (d : Doc) :
    M Int := do
  let ok ← startXml d
  logIf !ok
  let genret ← xmlDoc lt (o.getD .standard) (df.getD .standard) d
  logIf (genret ≠ 0)
  logIf !ok
  let ok ← call .endDocument
  logIf !ok
  return genret

/-- A new writer (`xmlNewTextWriterDoc`, comps_doc.c:186, 231) for a document: nothing written;
entries already in the log of the document are left out. -/
def start (fails : Nat → Bool) (d : Doc) : St := ⟨fails, [], [], [], d.logSet⟩

end Xml
end Comps
