import Verif.Model.Group
import Verif.Model.PyDict

/-!
# Python objects for single entries

`/repo/libcomps/src/python/src/pycomps_groups.c`, `pycomps_categories.c`, `pycomps_envs.c`,
`pycomps_gids.c`, `pycomps_hash.c` with the conversions of `pycomps_utils.c`: the classes `Group`,
`Category`, `Environment`, `Package` and `GroupId`, one object at a time: attributes of type string,
number and Boolean, constructors, comparison, `str`, `hash`.

`utf8` stands for Python's UTF-8 decoder: which byte strings it accepts.  `int` has 32 bits, `long`
has 64.

Left out: the texts of exceptions, failures of the Python runtime itself, reference counts, keyword
and positional passing of arguments (an argument is given or not), subclasses of `str` and `int`,
objects with `__index__`, lengths beyond `INT_MAX`.
-/

namespace Comps.PyElem
open Comps Comps.Obj Comps.Text
open Comps.PyDict (cstr)

/-! ## Values -/

/-- How a call fails. -/
inductive Exc where
  | typeError
  | valueError
  | overflowError
  /-- `UnicodeDecodeError`, `UnicodeEncodeError` -/
  | unicodeError
  | notImplemented
  deriving DecidableEq, Repr

/-- What a Python program passes. -/
inductive Arg where
  | none
  /-- a `str`, by its UTF-8 encoding if it has one -/
  | str (utf8 : Option Bytes)
  | bytes (b : Bytes)
  | int (n : Int)
  | bool (b : Bool)
  | other
  deriving DecidableEq, Repr

/-- What reading gives. -/
inductive Val where
  | none
  | text (b : Bytes)
  | num (n : Int)
  | bool (b : Bool)
  deriving DecidableEq, Repr

/-- The outcome of a statement that assigns. -/
inductive Out where
  | done
  | exc (e : Exc)
  /-- the call reports success and leaves an exception set: it surfaces later, or as
  `SystemError` -/
  | pending (e : Exc)
  deriving DecidableEq, Repr

/-- Conversion to `int` (32 bits, two's complement): the argument of the setters
(pycomps_utils.c:335-336). -/
def toInt (n : Int) : Int := (n + 2 ^ 31) % 2 ^ 32 - 2 ^ 31

/-- The runtime's `PyLong_AsLong` (called at pycomps_utils.c:335, pycomps_groups.c:422): `none` when
the number does not fit; it then returns -1 and sets `OverflowError`. -/
def asLong (n : Int) : Option Int := if -2 ^ 63 ≤ n ∧ n < 2 ^ 63 then some n else none

/-- `True` and `False` are the integers 1 and 0 (`PyLong_Check`, `PyLong_AsLong` of a `bool`). -/
def boolInt (b : Bool) : Int := if b then 1 else 0

/-- pycomps_utils.c:283-299 `__PyCOMPS_set_strattr`: what is passed to the setter, NULL being
`none`.  The first `none` is `del x.attr`. -/
def strIn : Option Arg → Except Exc (Option Bytes)
  | some .none => .ok none
  | some (.str (some b)) => .ok (some (cstr b))
  | some (.str none) => .error .typeError
  | some (.bytes _) => .error .typeError
  | some (.int _) => .error .typeError
  | some (.bool _) => .error .typeError
  | some .other => .error .typeError
  | none => .error .typeError

/-- What `__PyCOMPS_set_numattr` passes to the setter (pycomps_utils.c:322-339). -/
inductive NumIn where
  | reject (e : Exc)
  | call (n : Int) (unset : Bool) (out : Out)
  deriving DecidableEq, Repr

/-- pycomps_utils.c:322-339 `__PyCOMPS_set_numattr`.  `del x.attr` reads the type of a NULL
object. -/
def numIn : Option Arg → Res NumIn
  | none => .error .nullDeref
  | some .none => .ok (.call 1 true .done)
  | some (.int n) =>
    match asLong n with
    | some n => .ok (.call (toInt n) false .done)
    | none => .ok (.call (-1) false (.pending .overflowError))
  | some (.bool b) => .ok (.call (boolInt b) false .done)
  | some (.str _) => .ok (.reject .typeError)
  | some (.bytes _) => .ok (.reject .typeError)
  | some .other => .ok (.reject .typeError)

/-- comps_obj.c:64-73 `comps_object_tostr` on a property value (comps_obj.c:96-107, 135-145,
comps_objlist.c:448-488). -/
def pvalText : PVal → Res Bytes
  | .str s => do return (← strToStr s.val).str
  | .num n => do return (← numToStr n).str
  | .list l => do
    let items ← l.mapM fun s => do return (← strToStr s.val).str
    return (← listToStr items).str

/-- comps_obj.c:64-73 `comps_object_tostr`: NULL gives the empty text. -/
def objText {α : Type} (f : α → Res Bytes) : Option α → Res Bytes
  | none => .ok []
  | some a => f a

/-- comps_obj.c:135-145 `comps_str_tostr`. -/
def strText (s : CStr) : Res Bytes := do return (← strToStr s.val).str

section
variable (lt : UInt8 → UInt8 → Bool) (utf8 : Bytes → Bool)

/-- The runtime's `PyUnicode_FromString` (pycomps_utils.c:313). -/
def textOut (b : Bytes) : Except Exc Val := if utf8 b then .ok (.text b) else .error .unicodeError

/-! ## Groups, categories and environments -/

/-- The classes. -/
inductive EKind where
  | group | category | environment
  deriving DecidableEq, Repr

/-- Their attributes that hold one value: pycomps_groups.c:263-286, pycomps_categories.c:208-219,
pycomps_envs.c:222-233. -/
inductive Attr where
  | id | name | desc | langOnly | displayOrder | userVisible | biarchOnly | default
  deriving DecidableEq, Repr

/-- pycomps_groups.c:263-286, pycomps_categories.c:208-219, pycomps_envs.c:222-233: does the class
have the attribute. -/
def EKind.has : EKind → Attr → Bool
  | .group, _ => true
  | _, .id => true
  | _, .name => true
  | _, .desc => true
  | _, .displayOrder => true
  | _, _ => false

/-- pycomps_groups.c:147-164 `pycomps_group_boolattr_setter` up to the call: the number stored. -/
def flagIn : Option Arg → Except Exc Int
  | some (.bool b) => .ok (boolInt b)
  | _ => .error .typeError

/-- The call of a string setter, pycomps_utils.c:287-298. -/
def setStrAttr (p : StrProp) (props : RTree PVal) (v : Option Arg) : Res (RTree PVal × Out) :=
  match strIn v with
  | .error e => .ok (props, .exc e)
  | .ok s => .ok ((PropCall.str p s).run lt props, .done)

/-- The call of a number setter, pycomps_utils.c:328-337. -/
def setNumAttr (p : NumProp) (props : RTree PVal) (v : Option Arg) : Res (RTree PVal × Out) := do
  match ← numIn v with
  | .reject e => .ok (props, .exc e)
  | .call n unset out => .ok ((PropCall.num p n unset).run lt props, out)

/-- pycomps_groups.c:147-164 `pycomps_group_boolattr_setter`: writes the dictionary itself
(`comps_objdict_set_x`), under the key in the closure (pycomps_groups.c:278-286). -/
def setFlagAttr (p : NumProp) (props : RTree PVal) (v : Option Arg) : Res (RTree PVal × Out) :=
  match flagIn v with
  | .error e => .ok (props, .exc e)
  | .ok n => .ok (props.set lt p.key (some (.num n)), .done)

/-- `x.attr = v` (`del x.attr` with `none`): pycomps_groups.c:263-286, pycomps_categories.c:208-219,
pycomps_envs.c:222-233. -/
def setAttr (a : Attr) (props : RTree PVal) (v : Option Arg) : Res (RTree PVal × Out) :=
  match a with
  | .id => setStrAttr lt .id props v
  | .name => setStrAttr lt .name props v
  | .desc => setStrAttr lt .desc props v
  | .langOnly => setStrAttr lt .langonly props v
  | .displayOrder => setNumAttr lt .displayOrder props v
  | .userVisible => setFlagAttr lt .uservisible props v
  | .biarchOnly => setFlagAttr lt .biarchonly props v
  | .default => setFlagAttr lt .dflt props v

/-- pycomps_utils.c:301-320 `__PyCOMPS_get_strattr`. -/
def getStrAttr (o : Option PVal) : Res (Except Exc Val) :=
  match o with
  | none => .ok (.ok .none)
  | some v => do return textOut utf8 (← pvalText v)

/-- A property read as a `COMPS_Num` (pycomps_utils.c:349, pycomps_groups.c:174). -/
def asNum : PVal → Res Int
  | .num n => .ok n
  | _ => .error .typeConfusion

/-- pycomps_utils.c:341-355 `__PyCOMPS_get_numattr`. -/
def getNumAttr (o : Option PVal) : Res (Except Exc Val) :=
  match o with
  | none => .ok (.ok .none)
  | some v => do return .ok (.num (← asNum v))

/-- pycomps_groups.c:166-179 `pycomps_group_boolattr_getter`. -/
def getFlagAttr (o : Option PVal) : Res (Except Exc Val) :=
  match o with
  | none => .ok (.ok .none)
  | some v => do return .ok (.bool ((← asNum v) != 0))

/-- Reading `x.attr`: pycomps_groups.c:263-286, pycomps_categories.c:208-219,
pycomps_envs.c:222-233. -/
def getAttr (a : Attr) (props : RTree PVal) : Res (Except Exc Val) :=
  match a with
  | .id => getStrAttr utf8 (getStrProp props .id)
  | .name => getStrAttr utf8 (getStrProp props .name)
  | .desc => getStrAttr utf8 (getStrProp props .desc)
  | .langOnly => getStrAttr utf8 (getStrProp props .langonly)
  | .displayOrder => getNumAttr (getNumProp props .displayOrder)
  | .userVisible => getFlagAttr (getNumProp props .uservisible)
  | .biarchOnly => getFlagAttr (getNumProp props .biarchonly)
  | .default => getFlagAttr (getNumProp props .dflt)

/-! ## Constructors -/

/-- The runtime's conversion `s` of `PyArg_ParseTupleAndKeywords` (pycomps_groups.c:85): a `str`
without NUL.  An argument not given leaves the NULL put there before. -/
def parseStr : Option Arg → Except Exc (Option Bytes)
  | none => .ok none
  | some (.str (some b)) => if b.contains 0 then .error .valueError else .ok (some b)
  | some (.str none) => .error .unicodeError
  | some _ => .error .typeError

/-- The runtime's conversion `i` (pycomps_groups.c:85). -/
def parseInt (dflt : Int) : Option Arg → Except Exc Int
  | none => .ok dflt
  | some (.int n) => if -2 ^ 31 ≤ n ∧ n < 2 ^ 31 then .ok n else .error .overflowError
  | some (.bool b) => .ok (boolInt b)
  | some _ => .error .typeError

/-- The arguments of `Group(...)`, pycomps_groups.c:79-80. -/
structure GroupArgs where
  id : Option Arg := none
  name : Option Arg := none
  desc : Option Arg := none
  displayOrder : Option Arg := none
  default : Option Arg := none
  uservisible : Option Arg := none
  langonly : Option Arg := none

/-- pycomps_groups.c:68-104 `PyCOMPSGroup_init`: the properties of the new group. -/
def groupInit (a : GroupArgs) : Except Exc (RTree PVal) := do
  let id ← parseStr a.id
  let name ← parseStr a.name
  let desc ← parseStr a.desc
  let order ← parseInt (-1) a.displayOrder
  let dflt ← parseInt 0 a.default
  let vis ← parseInt 1 a.uservisible
  let lang ← parseStr a.langonly
  let t := (PropCall.str .id id).run lt RTree.create
  let t := (PropCall.str .name name).run lt t
  let t := (PropCall.str .desc desc).run lt t
  let t := (PropCall.num .dflt dflt false).run lt t
  let t := (PropCall.num .uservisible vis false).run lt t
  let t := if order > 0 then (PropCall.num .displayOrder order false).run lt t else t
  return (PropCall.str .langonly lang).run lt t

/-- The arguments of `Category(...)` and `Environment(...)`, pycomps_categories.c:73,
pycomps_envs.c:77. -/
structure EntryArgs where
  id : Option Arg := none
  name : Option Arg := none
  desc : Option Arg := none
  displayOrder : Option Arg := none

/-- pycomps_categories.c:68-93 `PyCOMPSCat_init`, pycomps_envs.c:73-97 `PyCOMPSEnv_init`. -/
def entryInit (a : EntryArgs) : Except Exc (RTree PVal) := do
  let id ← parseStr a.id
  let name ← parseStr a.name
  let desc ← parseStr a.desc
  let order ← parseInt (-1) a.displayOrder
  let t := (PropCall.str .id id).run lt RTree.create
  let t := (PropCall.str .name name).run lt t
  let t := (PropCall.str .desc desc).run lt t
  return if order ≠ -1 then (PropCall.num .displayOrder order false).run lt t else t

/-! ## Packages -/

/-- comps_docpackage.h:41-49 `COMPS_DocGroupPackage` as Python sees it: unlike in
`Verif/Model/Obj.lean` the type is any `int` (comps_docpackage.c:87-90).  `arches` cannot be read or
written (pycomps_groups.c:770-787). -/
structure Pkg where
  name : Option CStr
  requires : Option CStr
  basearchonly : Option Int
  type : Int
  deriving DecidableEq, Repr

/-- comps_docpackage.h:30-38: the numbers of the types. -/
def typeNum : PkgType → Int
  | .default => 0
  | .optional => 1
  | .conditional => 2
  | .mandatory => 3
  | .unknown => 4

/-- comps_docpackage.c:22-30 `comps_docpackage_create`. -/
def Pkg.create : Pkg := ⟨none, none, none, typeNum .unknown⟩

/-- The attributes, pycomps_groups.c:770-787. -/
inductive PkgAttr where
  | name | requires | type | basearchonly
  deriving DecidableEq, Repr

/-- pycomps_utils.c:357-372 `__PyCOMPS_set_boolattr`: `del` reads the type of a NULL object. -/
def boolIn : Option Arg → Res (Except Exc Int)
  | none => .error .nullDeref
  | some (.bool b) => .ok (.ok (boolInt b))
  | some _ => .ok (.error .typeError)

/-- `p.attr = v`, pycomps_groups.c:770-787 with comps_docpackage.c:53-58, 64-69, 75-82, 87-90: the
setters ignore `unset`, and a NULL name becomes a string object around NULL. -/
def Pkg.setAttr (p : Pkg) (a : PkgAttr) (v : Option Arg) : Res (Pkg × Out) :=
  match a with
  | .name =>
    match strIn v with
    | .error e => .ok (p, .exc e)
    | .ok s => .ok ({ p with name := some (compsStr s) }, .done)
  | .requires =>
    match strIn v with
    | .error e => .ok (p, .exc e)
    | .ok s => .ok ({ p with requires := some (compsStr s) }, .done)
  | .type => do
    match ← numIn v with
    | .reject e => .ok (p, .exc e)
    | .call n _ out => .ok ({ p with type := n }, out)
  | .basearchonly => do
    match ← boolIn v with
    | .error e => .ok (p, .exc e)
    | .ok n => .ok ({ p with basearchonly := some n }, .done)

/-- pycomps_utils.c:301-320 on a string object. -/
def cstrOut (o : Option CStr) : Res (Except Exc Val) :=
  match o with
  | none => .ok (.ok .none)
  | some s => do return textOut utf8 (← strText s)

/-- Reading `p.attr`, pycomps_groups.c:770-787, pycomps_utils.c:301-320, 341-355, 374-397. -/
def Pkg.getAttr (p : Pkg) : PkgAttr → Res (Except Exc Val)
  | .name => cstrOut utf8 p.name
  | .requires => cstrOut utf8 p.requires
  | .type => .ok (.ok (.num p.type))
  | .basearchonly => .ok (.ok (match p.basearchonly with | none => .none | some n => .bool (n != 0)))

/-- The arguments of `Package(...)`, pycomps_groups.c:719. -/
structure PkgArgs where
  name : Option Arg := none
  type : Option Arg := none
  requires : Option Arg := none

/-- pycomps_groups.c:712-735 `PyCOMPSPack_init`: an argument not given is set as well. -/
def pkgInit (a : PkgArgs) : Except Exc Pkg := do
  let name ← parseStr a.name
  let type ← parseInt (typeNum .unknown) a.type
  let requires ← parseStr a.requires
  return { Pkg.create with name := some (compsStr name), requires := some (compsStr requires), type }

/-- comps_docpackage.c:104-117 `comps_docpackage_cmp_u`. -/
def Pkg.cmp (a b : Pkg) : Bool :=
  if !objCmp CStr.cmp a.name b.name then false else
  if !objCmp CStr.cmp a.requires b.requires then false else
  if a.type ≠ b.type then false else true

/-! ## Group ids -/

/-- The arguments of `GroupId(...)`, pycomps_gids.c:74: the name has to be given. -/
structure GidArgs where
  name : Option Arg
  default : Option Arg := none

/-- pycomps_gids.c:43-55 `pycomps_p2c_bool_convert` as called by the runtime: only a `bool`. -/
def parseBool : Option Arg → Except Exc Bool
  | none => .ok false
  | some (.bool b) => .ok b
  | some _ => .error .typeError

/-- pycomps_gids.c:64-91 `PyCOMPSGID_init`. -/
def gidInit (a : GidArgs) : Except Exc GroupId := do
  match a.name with
  | none => .error .typeError
  | some v => do
    let name ← parseStr (some v)
    let dflt ← parseBool a.default
    return (GroupId.create.setName name).setDefault (if dflt then 1 else 0)

/-- The attributes, pycomps_gids.c:122-131. -/
inductive GidAttr where
  | name | default
  deriving DecidableEq, Repr

/-- `i.attr = v`, pycomps_gids.c:122-131, 100-112; comps_docgroupid.c:50-55.  `del i.default` reads the
type of a NULL object. -/
def gidSetAttr (g : GroupId) (a : GidAttr) (v : Option Arg) : Res (GroupId × Out) :=
  match a with
  | .name =>
    match strIn v with
    | .error e => .ok (g, .exc e)
    | .ok s => .ok (g.setName s, .done)
  | .default => do
    match ← boolIn v with
    | .error e => .ok (g, .exc e)
    | .ok n => .ok ({ g with dflt := n != 0 }, .done)

/-- Reading `i.attr`, pycomps_gids.c:122-131, 93-98. -/
def gidGetAttr (g : GroupId) : GidAttr → Res (Except Exc Val)
  | .name => cstrOut utf8 g.name
  | .default => .ok (.ok (.bool g.dflt))

/-! ## Comparison -/

/-- The operators, `op` of `tp_richcompare`. -/
inductive CmpOp where
  | eq | ne | order
  deriving DecidableEq, Repr

/-- The end of the comparison functions: pycomps_groups.c:139-144. -/
def cmpOut (op : CmpOp) (equal : Bool) : Except Exc Bool :=
  match op with
  | .eq => .ok equal
  | .ne => .ok (!equal)
  | .order => .error .notImplemented

/-- What stands on the other side of a comparison. -/
inductive Other (α : Type) where
  /-- an object of the same class -/
  | same (a : α)
  | none
  | str (utf8 : Option Bytes)
  | bytes (b : Bytes)
  | other

/-- pycomps_groups.c:121-145 `PyCOMPSGroup_cmp`, pycomps_categories.c:119-139, pycomps_envs.c:123-141,
pycomps_groups.c:817-836 `PyCOMPSPack_cmp`, with `CMP_OP_EQ_NE_CHECK` and `CMP_NONE_CHECK`
(pycomps_macros.h:28-42). -/
def richCmp {α : Type} (cmp : α → α → Bool) (op : CmpOp) (self : α) :
    Other α → Except Exc Bool
  | .same b => cmpOut op (cmp self b)
  | .none => cmpOut op false
  | _ => if op = .order then .error .notImplemented else .error .typeError

/-- What a comparison of group ids gives. -/
inductive GidCmp where
  | ans (r : Except Exc Bool)
  /-- an answer while an exception is set -/
  | pending (b : Bool) (e : Exc)

/-- pycomps_gids.c:154-188 `PyCOMPSGID_cmp` with `comps_gid_from_str` (140-152).  With `None` the
field `c_obj` of an object that has none is read (line 170).  With a `bytes` or an unencodable `str`,
`comps_gid_from_str` gives NULL with an exception set, and the comparison with NULL goes on. -/
def gidCmp (op : CmpOp) (self : GroupId) : Other GroupId → Res GidCmp
  | .same b => .ok (.ans (cmpOut op (self.cmp b)))
  | .none => if op = .order then .ok (.ans (.error .notImplemented)) else .error .outOfBounds
  | .str (some b) =>
    .ok (.ans (cmpOut op (self.cmp { GroupId.create with name := some (compsStr (some (cstr b))) })))
  | .str none => .ok (gidCmpNull op)
  | .bytes _ => .ok (gidCmpNull op)
  | .other => .ok (.ans (if op = .order then .error .notImplemented else .error .typeError))
where
  /-- comps_obj.c:48-58: an object and NULL are not equal. -/
  gidCmpNull (op : CmpOp) : GidCmp :=
    match op with
    | .eq => .pending false .typeError
    | .ne => .pending true .typeError
    | .order => .ans (.error .notImplemented)

/-! ## Texts and hashes -/

/-- `snprintf(malloc(n), n, ...)` of a text `s` (comps_docpackage.c:225-229): cut to fit. -/
def snprintf (n : Nat) (s : Bytes) : Res Buf := Buf.fill n (s.take (n - 1))

/-- comps_docpackage.c:207-233 `comps_docpackage_str_u`, given the name of the type. -/
def pkgText (name requires : Option CStr) (bao : Option Int) (type : Bytes) : Res Bytes := do
  let len := b!"<COMPS_DocGroupPackage name='' type='' requires='' basearchonly=''>".length
  let name ← objText strText name
  let requires ← objText strText requires
  let b : Bytes := match bao with
    | none => b!"False"
    | some n => if n ≠ 0 then b!"True" else b!"False"
  let total := len + name.length + type.length + requires.length + b.length + 1
  return (← snprintf total (b!"<COMPS_DocGroupPackage name='" ++ name ++ b!"' type='" ++ type ++
    b!"' requires='" ++ requires ++ b!"' basearchonly='" ++ b ++ b!"'>")).str

/-- comps_docpackage.c:125-136 `comps_docpackage_type_str` on any `int`. -/
def typeStr (n : Int) : Bytes :=
  if n = 1 then b!"optional"
  else if n = 3 then b!"mandatory"
  else if n = 2 then b!"conditional"
  else b!"default"

/-- comps_docpackage.c:207-233. -/
def Pkg.text (p : Pkg) : Res Bytes := pkgText p.name p.requires p.basearchonly (typeStr p.type)

/-- comps_docpackage.c:207-233. -/
def packageText (p : Package) : Res Bytes := pkgText p.name p.requires p.basearchonly p.type.str

/-- comps_docgroupid.c:96-104 `comps_docgroupid_str_u`. -/
def gidText (g : GroupId) : Res Bytes := do
  let len := b!"<COMPS_DocGroupId name='' default=''>".length
  let name ← objText strText g.name
  let d : Bytes := if g.dflt then b!"True" else b!"False"
  return (← Buf.fill (len + name.length + d.length + 1)
    (b!"<COMPS_DocGroupId name='" ++ name ++ b!"' default='" ++ d ++ b!"'>")).str

/-- comps_objlist.c:448-488 `comps_objlist_tostr_u`. -/
def listText {α : Type} (f : α → Res Bytes) (l : List α) : Res Bytes := do
  return (← listToStr (← l.mapM f)).str

/-- The loop of comps_docgroup.c:410-414 (comps_doccategory.c:328-332, comps_docenv.c:424-428):
every property followed by `", "`. -/
def catProps (b : Buf) : List Bytes → Res Buf
  | [] => .ok b
  | s :: ss => do
    let b ← b.strcat s
    let b ← b.strcat b!", "
    catProps b ss

/-- comps_docgroup.c:403-425, comps_doccategory.c:321-344, comps_docenv.c:415-443: the head, the
properties each followed by `", "`, then the other texts with `", "` between them, then `">"`; `slack`
is the room reserved beside the texts and the head. -/
def entryText (head : Bytes) (slack : Nat) (props rest : List Bytes) : Res Bytes := do
  let total := (props.map List.length).sum + (rest.map List.length).sum
  let b ← Buf.empty (total + slack + head.length)
  let b ← b.strcat head
  let b ← catProps b props
  let b ← catSep b b!", " rest
  let b ← b.strcat b!">"
  return b.str

/-- The text of a language dictionary: `COMPS_ObjDict_ObjInfo` has no `to_str`
(comps_objdict.c:123-129), so `comps_object_tostr` gives the empty text (comps_obj.c:64-73). -/
def dictText (_ : RTree PVal) : Res Bytes := .ok []

/-- The texts of properties, comps_docgroup.c:388-394 (comps_doccategory.c:307-312,
comps_docenv.c:399-404). -/
def propTexts (props : RTree PVal) (keys : List Bytes) : Res (List Bytes) :=
  keys.mapM fun k => objText pvalText (props.get k)

/-- comps_docgroup.c:377-427 `comps_docgroup_tostr_u`. -/
def groupText (g : Group) : Res Bytes := do
  let props ← propTexts g.props
    [b!"id", b!"name", b!"desc", b!"display_order", b!"def", b!"langonly"]
  let names ← dictText g.nameByLang
  let descs ← dictText g.descByLang
  let pkgs ← objText (listText packageText) g.packages
  entryText b!"<COMPS_Group " (2 + 8 * 2) props [names, descs, pkgs]

/-- comps_doccategory.c:296-345 `comps_doccategory_tostr_u`. -/
def categoryText (c : Category) : Res Bytes := do
  let props ← propTexts c.props [b!"id", b!"name", b!"desc", b!"display_order"]
  let names ← dictText c.nameByLang
  let descs ← dictText c.descByLang
  let ids ← objText (listText gidText) c.groupIds
  entryText b!"<COMPS_Category " (2 + 6 * 2) props [names, descs, ids]

/-- comps_docenv.c:388-445 `comps_docenv_tostr_u`. -/
def envText (e : Env) : Res Bytes := do
  let props ← propTexts e.props [b!"id", b!"name", b!"desc", b!"display_order"]
  let names ← dictText e.nameByLang
  let descs ← dictText e.descByLang
  let ids ← objText (listText gidText) e.groupList
  let opts ← objText (listText gidText) e.optionList
  entryText b!"<COMPS_Env " (2 + 8 * 2) props [names, descs, ids, opts]

/-- `crc32_tab`, crc32.c:46-90. -/
def crcTab : List UInt32 :=
  [0x00000000, 0x77073096, 0xee0e612c, 0x990951ba, 0x076dc419, 0x706af48f, 0xe963a535,
   0x9e6495a3, 0x0edb8832, 0x79dcb8a4, 0xe0d5e91e, 0x97d2d988, 0x09b64c2b, 0x7eb17cbd,
   0xe7b82d07, 0x90bf1d91, 0x1db71064, 0x6ab020f2, 0xf3b97148, 0x84be41de, 0x1adad47d,
   0x6ddde4eb, 0xf4d4b551, 0x83d385c7, 0x136c9856, 0x646ba8c0, 0xfd62f97a, 0x8a65c9ec,
   0x14015c4f, 0x63066cd9, 0xfa0f3d63, 0x8d080df5, 0x3b6e20c8, 0x4c69105e, 0xd56041e4,
   0xa2677172, 0x3c03e4d1, 0x4b04d447, 0xd20d85fd, 0xa50ab56b, 0x35b5a8fa, 0x42b2986c,
   0xdbbbc9d6, 0xacbcf940, 0x32d86ce3, 0x45df5c75, 0xdcd60dcf, 0xabd13d59, 0x26d930ac,
   0x51de003a, 0xc8d75180, 0xbfd06116, 0x21b4f4b5, 0x56b3c423, 0xcfba9599, 0xb8bda50f,
   0x2802b89e, 0x5f058808, 0xc60cd9b2, 0xb10be924, 0x2f6f7c87, 0x58684c11, 0xc1611dab,
   0xb6662d3d, 0x76dc4190, 0x01db7106, 0x98d220bc, 0xefd5102a, 0x71b18589, 0x06b6b51f,
   0x9fbfe4a5, 0xe8b8d433, 0x7807c9a2, 0x0f00f934, 0x9609a88e, 0xe10e9818, 0x7f6a0dbb,
   0x086d3d2d, 0x91646c97, 0xe6635c01, 0x6b6b51f4, 0x1c6c6162, 0x856530d8, 0xf262004e,
   0x6c0695ed, 0x1b01a57b, 0x8208f4c1, 0xf50fc457, 0x65b0d9c6, 0x12b7e950, 0x8bbeb8ea,
   0xfcb9887c, 0x62dd1ddf, 0x15da2d49, 0x8cd37cf3, 0xfbd44c65, 0x4db26158, 0x3ab551ce,
   0xa3bc0074, 0xd4bb30e2, 0x4adfa541, 0x3dd895d7, 0xa4d1c46d, 0xd3d6f4fb, 0x4369e96a,
   0x346ed9fc, 0xad678846, 0xda60b8d0, 0x44042d73, 0x33031de5, 0xaa0a4c5f, 0xdd0d7cc9,
   0x5005713c, 0x270241aa, 0xbe0b1010, 0xc90c2086, 0x5768b525, 0x206f85b3, 0xb966d409,
   0xce61e49f, 0x5edef90e, 0x29d9c998, 0xb0d09822, 0xc7d7a8b4, 0x59b33d17, 0x2eb40d81,
   0xb7bd5c3b, 0xc0ba6cad, 0xedb88320, 0x9abfb3b6, 0x03b6e20c, 0x74b1d29a, 0xead54739,
   0x9dd277af, 0x04db2615, 0x73dc1683, 0xe3630b12, 0x94643b84, 0x0d6d6a3e, 0x7a6a5aa8,
   0xe40ecf0b, 0x9309ff9d, 0x0a00ae27, 0x7d079eb1, 0xf00f9344, 0x8708a3d2, 0x1e01f268,
   0x6906c2fe, 0xf762575d, 0x806567cb, 0x196c3671, 0x6e6b06e7, 0xfed41b76, 0x89d32be0,
   0x10da7a5a, 0x67dd4acc, 0xf9b9df6f, 0x8ebeeff9, 0x17b7be43, 0x60b08ed5, 0xd6d6a3e8,
   0xa1d1937e, 0x38d8c2c4, 0x4fdff252, 0xd1bb67f1, 0xa6bc5767, 0x3fb506dd, 0x48b2364b,
   0xd80d2bda, 0xaf0a1b4c, 0x36034af6, 0x41047a60, 0xdf60efc3, 0xa867df55, 0x316e8eef,
   0x4669be79, 0xcb61b38c, 0xbc66831a, 0x256fd2a0, 0x5268e236, 0xcc0c7795, 0xbb0b4703,
   0x220216b9, 0x5505262f, 0xc5ba3bbe, 0xb2bd0b28, 0x2bb45a92, 0x5cb36a04, 0xc2d7ffa7,
   0xb5d0cf31, 0x2cd99e8b, 0x5bdeae1d, 0x9b64c2b0, 0xec63f226, 0x756aa39c, 0x026d930a,
   0x9c0906a9, 0xeb0e363f, 0x72076785, 0x05005713, 0x95bf4a82, 0xe2b87a14, 0x7bb12bae,
   0x0cb61b38, 0x92d28e9b, 0xe5d5be0d, 0x7cdcefb7, 0x0bdbdf21, 0x86d3d2d4, 0xf1d4e242,
   0x68ddb3f8, 0x1fda836e, 0x81be16cd, 0xf6b9265b, 0x6fb077e1, 0x18b74777, 0x88085ae6,
   0xff0f6a70, 0x66063bca, 0x11010b5c, 0x8f659eff, 0xf862ae69, 0x616bffd3, 0x166ccf45,
   0xa00ae278, 0xd70dd2ee, 0x4e048354, 0x3903b3c2, 0xa7672661, 0xd06016f7, 0x4969474d,
   0x3e6e77db, 0xaed16a4a, 0xd9d65adc, 0x40df0b66, 0x37d83bf0, 0xa9bcae53, 0xdebb9ec5,
   0x47b2cf7f, 0x30b5ffe9, 0xbdbdf21c, 0xcabac28a, 0x53b39330, 0x24b4a3a6, 0xbad03605,
   0xcdd70693, 0x54de5729, 0x23d967bf, 0xb3667a2e, 0xc4614ab8, 0x5d681b02, 0x2a6f2b94,
   0xb40bbe37, 0xc30c8ea1, 0x5a05df1b, 0x2d02ef8d]

/-- The loop of crc32.c:100-101. -/
def crcLoop (crc : UInt32) : Bytes → Res UInt32
  | [] => .ok crc
  | b :: bs =>
    match crcTab[((crc ^^^ b.toUInt32) &&& 0xff).toNat]? with
    | some t => crcLoop (t ^^^ (crc >>> 8)) bs
    | none => .error .outOfBounds

/-- crc32.c:92-104 `crc32(0, buf, size)`.  The build takes the function of this name from zlib, which
computes the same. -/
def crc32 (s : Bytes) : Res UInt32 := do
  let crc ← crcLoop (0 ^^^ 0xffffffff) s
  return crc ^^^ 0xffffffff

/-- pycomps_hash.c:23-31 `PyCOMPS_hash`, given the text of the object: `Py_hash_t` has 64 bits, so the
number is kept. -/
def hash (text : Res Bytes) : Res Nat := do
  return (← crc32 (← text)).toNat

/-- `str(x)` for groups, categories, environments: pycomps_groups.c:97-107, pycomps_categories.c:95-105,
pycomps_envs.c:99-109.  `PyUnicode_FromFormat` replaces what is not UTF-8. -/
def entryStr (props : RTree PVal) : Res Bytes := objText pvalText (props.get b!"id")

/-- `str(p)`, pycomps_groups.c:789-801. -/
def Pkg.str (p : Pkg) : Res Bytes := objText strText p.name

/-! ## Searching packages -/

/-- pycomps_groups.c:416-437 `__pycomps_pkg_type_check` as called by the runtime, for a `type` that is
-1 before. -/
def parseType : Option Arg → Except Exc Int
  | none => .ok (-1)
  | some (.int n) =>
    match asLong n with
    | some n => if 0 ≤ n ∧ n ≤ 4 then .ok n else .error .typeError
    | none => .error .overflowError
  | some (.bool b) => .ok (boolInt b)
  | some _ => .error .typeError

/-- comps_docgroup.c:108-118: does the package match?  As in `Verif/Model/Group.lean`, on any type
number. -/
def pkgMatches (name : Option Bytes) (type : Int) (p : Pkg) : Bool :=
  let max := (if name.isSome then 1 else 0) + (if type ≠ typeNum .unknown then 1 else 0)
  let matched :=
    (if name.isSome && objCmp CStr.cmp p.name (some (compsStr name)) then 1 else 0) +
    (if type ≠ typeNum .unknown ∧ p.type = type then 1 else 0)
  matched == max

/-- pycomps_groups.c:439-459 `PyCOMPSGroup_packages_match`, on the packages of the group. -/
def packagesMatch (l : List Pkg) (name type : Option Arg) : Except Exc (List Pkg) := do
  let name ← parseStr name
  let type ← parseType type
  return l.filter (pkgMatches name type)

end
end Comps.PyElem
