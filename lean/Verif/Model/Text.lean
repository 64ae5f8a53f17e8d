import Verif.Model.Basic

/-!
# Text functions and their buffers

A buffer is a block of `cap` bytes holding a string; every write checks that the bytes written,
with the terminating NUL, fit the block.
-/

namespace Comps.Text

/-- A block of `cap` bytes returned by `malloc` with the C string written to it
(e.g. comps_utils.c:102-112). -/
structure Buf where
  cap : Nat
  str : Bytes
  deriving DecidableEq, Repr

/-- `malloc(cap)` followed by `ret[0] = 0` (comps_objlist.c:468-469, comps_utils.c:102-103).
Simplification: the allocation succeeds. -/
def Buf.empty (cap : Nat) : Res Buf :=
  if 1 ≤ cap then .ok ⟨cap, []⟩ else .error .outOfBounds

/-- `strcat(buf, s)` (e.g. comps_objlist.c:470). -/
def Buf.strcat (b : Buf) (s : Bytes) : Res Buf :=
  if b.str.length + s.length + 1 ≤ b.cap then .ok { b with str := b.str ++ s }
  else .error .outOfBounds

/-- `strcpy(malloc(cap), s)`, also `sprintf` and `memcpy` of a whole string (e.g.
comps_obj.c:104-105, 138-139). -/
def Buf.fill (cap : Nat) (s : Bytes) : Res Buf :=
  if s.length + 1 ≤ cap then .ok ⟨cap, s⟩ else .error .outOfBounds

/-! ## numbers -/

/-- Digits that `sprintf("%d")` writes for a non-negative number (comps_obj.c:105). -/
def dec (n : Nat) : Bytes :=
  if n < 10 then [48 + n.toUInt8] else dec (n / 10) ++ [48 + (n % 10).toUInt8]

/-- What `sprintf("%d")` writes (comps_obj.c:105). -/
def decInt : Int → Bytes
  | .ofNat n => dec n
  | .negSucc n => 45 :: dec (n + 1)

/-- `(int)log10(n)` for `n > 0`, comps_obj.c:103.
Simplification: the floating point result rounds down to the integer part of the real logarithm,
which it does for every `int`. -/
def log10 (n : Nat) : Nat := if n < 10 then 0 else log10 (n / 10) + 1

/-- `comps_num_tostr`, comps_obj.c:96-107.  `log10` of a negative number is not a number, which no
`int` can hold. -/
def numToStr (v : Int) : Res Buf :=
  if v < 0 then .error .badConversion
  else
    let x := if v = 0 then 1 else log10 v.toNat + 1
    Buf.fill (x + 1) (decInt v)

/-- `comps_str_tostr`, comps_obj.c:135-145; `none` is a NULL `val`. -/
def strToStr : Option Bytes → Res Buf
  | some s => Buf.fill (s.length + 1) s
  | none => Buf.empty 1

/-- `digits_count`, comps_utils.c:62-73. -/
def digitsCount (x : Nat) : Nat :=
  if x ≥ 100000000 then 9
  else if x ≥ 10000000 then 8
  else if x ≥ 1000000 then 7
  else if x ≥ 100000 then 6
  else if x ≥ 10000 then 5
  else if x ≥ 1000 then 4
  else if x ≥ 100 then 3
  else if x ≥ 10 then 2
  else 1

/-! ## lists -/

/-- `total_strlen` of `comps_objlist_tostr_u`, comps_objlist.c:451, 455-464, for the texts of the
elements: every element but the last adds the separator. -/
def listLen : List Bytes → Nat
  | [] => 10
  | [s] => 10 + s.length
  | s :: s' :: ss => 2 + s.length + listLen (s' :: ss)

/-- The loop of comps_objlist.c:473-480: texts separated by `", "`. -/
def catSep (b : Buf) (sep : Bytes) : List Bytes → Res Buf
  | [] => .ok b
  | [s] => b.strcat s
  | s :: s' :: ss => do
      let b ← b.strcat s
      let b ← b.strcat sep
      catSep b sep (s' :: ss)

/-- `comps_objlist_tostr_u`, comps_objlist.c:448-488, given the texts of the elements
(`comps_object_tostr`, comps_obj.c:64-73).
Simplification: the `items` array of zero elements (comps_objlist.c:449, for an empty list) is
taken to be allowed. -/
def listToStr (items : List Bytes) : Res Buf := do
  let b ← Buf.empty (listLen items)
  let b ← b.strcat b!"["
  let b ← catSep b b!", " items
  b.strcat b!"]"

/-- `__comps_xml_arch_str`, comps_utils.c:86-114, given the texts of the architectures. -/
def archStr (items : List Bytes) : Res Buf :=
  if items.isEmpty then Buf.empty 1
  else do
    let b ← Buf.empty (items.map fun s => s.length + 1).sum
    catSep b b!" " items

/-- Is the byte one of the separators `" ,"` given to `strtok` (comps_elem.c:441)? -/
def isSep (c : UInt8) : Bool := c == 32 || c == 44

/-- `__comps_split_arches`, comps_elem.c:437-447: the tokens `strtok(arches, " ,")` finds, that is
the maximal runs of other bytes.  `cur` is the token being read. -/
def splitArches (cur : Bytes) : Bytes → List Bytes
  | [] => if cur.isEmpty then [] else [cur]
  | c :: cs =>
    if isSep c then (if cur.isEmpty then splitArches [] cs else cur :: splitArches [] cs)
    else splitArches (cur ++ [c]) cs

/-! ## package types -/

/-- `COMPS_PackageType`, comps_docpackage.h:30-38. -/
inductive PkgType where
  | default | optional | conditional | mandatory | unknown
  deriving DecidableEq, Repr

/-- `comps_docpackage_type_str`, comps_docpackage.c:125-136. -/
def PkgType.str : PkgType → Bytes
  | .optional => b!"optional"
  | .mandatory => b!"mandatory"
  | .conditional => b!"conditional"
  | _ => b!"default"

/-- The `type` attribute written by `comps_docpackage_xml`, comps_docpackage.c:159-166. -/
def PkgType.xml (t : PkgType) : Bytes :=
  if t = .optional then b!"optional"
  else if t = .mandatory then b!"mandatory"
  else if t = .conditional then b!"conditional"
  else b!"default"

/-- `__comps_strcmp`, comps_utils.c:33-37; `none` is NULL. -/
def strcmp : Option Bytes → Option Bytes → Bool
  | none, none => true
  | some a, some b => a == b
  | _, _ => false

/-- `comps_package_get_type`, comps_elem.c:406-412; `none` is NULL. -/
def pkgGetType (s : Option Bytes) : PkgType :=
  if strcmp s (some b!"default") then .default
  else if strcmp s (some b!"optional") then .optional
  else if strcmp s (some b!"conditional") then .conditional
  else if strcmp s (some b!"mandatory") || s.isNone then .mandatory
  else .unknown

/-! ## element names -/

/-- `COMPS_ElemType`, comps_elem.h:28-53. -/
inductive ElemType where
  | unknown | doc | group | id | name | desc | default | langonly | uservisible | biarchonly
  | packagelist | packagereq | category | grouplist | groupid | displayOrder | env | optlist
  | ignoredep | whiteout | blacklist | package | langpacks | matchE | none | sentinel
  deriving DecidableEq, Repr

/-- `comps_elem_get_name`, comps_elem.c:295-373. -/
def ElemType.getName : ElemType → Bytes
  | .sentinel => []
  | .unknown => []
  | .none => []
  | .doc => b!"comps"
  | .group => b!"group"
  | .id => b!"id"
  | .name => b!"name"
  | .desc => b!"description"
  | .default => b!"default"
  | .uservisible => b!"uservisible"
  | .biarchonly => b!"biarchonly"
  | .packagelist => b!"packagelist"
  | .packagereq => b!"packagereq"
  | .category => b!"category"
  | .grouplist => b!"grouplist"
  | .groupid => b!"groupid"
  | .langonly => b!"langonly"
  | .displayOrder => b!"display_order"
  | .env => b!"environment"
  | .optlist => b!"optionlist"
  | .ignoredep => b!"ignoredep"
  | .whiteout => b!"whiteout"
  | .blacklist => b!"blacklist"
  | .package => b!"package"
  | .langpacks => b!"langpacks"
  | .matchE => b!"match"

/-- The tests of `comps_elem_get_type`, in order: comps_elem.c:378-402. -/
def typeTable : List (Bytes × ElemType) :=
  [(b!"comps", .doc),
   (b!"group", .group),
   (b!"id", .id),
   (b!"name", .name),
   (b!"description", .desc),
   (b!"default", .default),
   (b!"uservisible", .uservisible),
   (b!"biarchonly", .biarchonly),
   (b!"packagelist", .packagelist),
   (b!"packagereq", .packagereq),
   (b!"category", .category),
   (b!"grouplist", .grouplist),
   (b!"groupid", .groupid),
   (b!"display_order", .displayOrder),
   (b!"langonly", .langonly),
   (b!"environment", .env),
   (b!"optionlist", .optlist),
   (b!"langpacks", .langpacks),
   (b!"match", .matchE),
   (b!"blacklist", .blacklist),
   (b!"package", .package),
   (b!"whiteout", .whiteout),
   (b!"ignoredep", .ignoredep)]

/-- `comps_elem_get_type`, comps_elem.c:375-404: the first test that succeeds. -/
def getType (s : Bytes) : ElemType :=
  match typeTable.find? fun p => p.1 == s with
  | some p => p.2
  | none => .unknown

/-- The `.name` of `COMPS_ElemInfos[type]` (comps_elem.c:22-235, 268-293), used in messages.  The
table has no entry for the last two types: reading them is out of bounds. -/
def ElemType.infoName : ElemType → Res Bytes
  | .unknown => .ok b!"???"
  | .optlist => .ok b!"option_list"
  | .none => .error .outOfBounds
  | .sentinel => .error .outOfBounds
  | t => .ok t.getName

/-! ## log messages -/

/-- `COMPS_LogCodeFormat`, comps_log.c:3-50, with the codes of comps_log_codes.h:12-38; `none` is
a NULL entry (code 0) or no entry. -/
def logFormat : Nat → Option Bytes
  | 1 => some b!""
  | 2 => some b!"WARNING: Unknown elemenet '%s' at line:%s\n"
  | 3 => some b!"WARNING: Element <%s> at line:%s col:%s has been already found\n"
  | 4 => some b!"ERROR: Parser error at line:%s col:%s\n    %s\n"
  | 5 => some b!"WARNING: Wrong default param value '%s' at line:%s col:%s\n"
  | 6 => some b!"WARNING: Wrong uservisible param value'%s' at line:%s col:%s\n"
  | 7 => some b!"WARNING: Unkonwn package type '%s' at line:%s col:%s\n"
  | 8 => some b!"WARNING: <default> subelement required at line:%s col:%s\n"
  | 9 => some b!"WARNING: <uservisible> subelementrequired at line:%s col%s\n"
  | 10 => some b!"ERROR: '<name>' subelement required at line:%s col:%s\n"
  | 11 => some b!"WARNING: '<id>' subelement required at line:%s col:%s\n"
  | 12 => some b!"WARNING: '<description>' subelement required at line:%s col:%s\n"
  | 13 => some b!"WARNING: '<grouplist>' subelement not parsed and groupid found at line:%s col:%s\n"
  | 14 => some b!"WARNING: '<optionlist>' subelement not parsed and groupid found at line:%s col:%s\n"
  | 15 => some b!"Category with id %s has no group ids.skipping xml output\n"
  | 16 => some b!"ERROR: <%s> found with no suitable parent at line:%s col:%s\n"
  | 17 => some b!"Malloc failed. Cannot continue\n"
  | 18 => some b!"Can't read file\n"
  | 19 => some b!"Can't write file %s\n"
  | 20 => some b!"Can't generate xml\n"
  | 21 => some b!"Element %s is required at line:%s column :%s but missing\n"
  | 22 => some b!"%s is empty at line:%s column :%s\n"
  | 23 => some b!"'%s' found between elements at line:%s column :%s\n"
  | 24 => some b!"<%s> content missing at line:%s column:%s\n"
  | 25 => some b!"Group with id %s has no packages.skipping xml output\n"
  | 26 => some b!"Environment with id %s has no group ids and no .option ids. Skipping xml output\n"
  | 27 => some b!"WARNING: Unknown attribute '%s' in element '%s' at line:%s col: %s\n"
  | _ => none

/-- `vsprintf(str, fmt, args)`, comps_log_codes.c:3-12, for formats whose only conversion is `%s`:
the text produced.  A missing argument is read from registers never set. -/
def vsprintf : Bytes → List Bytes → Res Bytes
  | [], _ => .ok []
  | [c], _ => if c = 37 then .error .uninitialised else .ok [c]
  | c :: d :: fmt, args =>
    if c = 37 then
      if d = 115 then
        match args with
        | [] => .error .uninitialised
        | a :: args => do .ok (a ++ (← vsprintf fmt args))
      else .error .uninitialised
    else do .ok (c :: (← vsprintf (d :: fmt) args))

/-- `comps_log_entry_str`, comps_log.c:177-193, with `expand_s` (comps_log_codes.c:49-72, 78-80),
given the texts of the arguments: allocate
`strlen(fmt) + total_len + 1 - 2 * arg_count` bytes, then format.  A negative size wraps to one
that cannot be allocated, and the NULL returned is written to; with more than five arguments
nothing is written to the buffer. -/
def entryStr (code : Nat) (args : List Bytes) : Res Buf :=
  match logFormat code with
  | none => .error .nullDeref
  | some fmt =>
    let total := (args.map List.length).sum
    if fmt.length + total + 1 < 2 * args.length then .error .nullDeref
    else if 5 < args.length then .error .uninitialised
    else do
      let out ← vsprintf fmt args
      Buf.fill (fmt.length + total + 1 - 2 * args.length) out

/-- Every call of `comps_log_error`, `comps_log_error_x`, `comps_log_warning_x` in the library, as
(code, number of arguments): comps_parse.c:208, 221, 228, 230, 258, 290, 313, 350, 373, 379, 422,
465; comps_elem.c:420, 430, 561, 580, 624, 737, 781, 807, 823, 855; comps_doc.c:196, 205, 209, 238,
246, 248, 250; comps_doccategory.c:228; comps_docenv.c:312; comps_docgroup.c:303;
comps_utils.c:143; comps_utils.h:177. -/
def libCalls : List (Nat × Nat) :=
  [(18, 0), (17, 0), (18, 0), (4, 3), (4, 3), (17, 0), (23, 3), (17, 0), (16, 3), (23, 3), (17, 0),
   (27, 4), (21, 3), (3, 3), (22, 3), (22, 3), (24, 3), (24, 3), (5, 3), (5, 3), (5, 3), (3, 3),
   (20, 0), (20, 0), (19, 1), (20, 0), (20, 0), (20, 0), (20, 0), (25, 1), (25, 1), (25, 1),
   (20, 0), (20, 0)]

end Comps.Text
