import Verif.Model.PyElem
import Verif.Model.ValidateDoc
import Verif.Model.Doc

/-!
# Python programs on documents, entries, lists and dictionaries: who holds which object

`/repo/libcomps/src/python/src/pycomps_sequence.c`, `pycomps_utils.c`, `pycomps_groups.c`,
`pycomps_categories.c`, `pycomps_envs.c`, `pycomps_gids.c`, `pycomps.c`: the classes `Group`,
`Category`, `Environment`, `Package`, `GroupId`, their lists, `StrDict` and `Comps`, several objects at a
time.  Objects of
the C library and the Python objects around them live on one heap, each with its reference count, so
that an object reached in two ways, freed too early or never freed is visible.

What a single object contains is a value, as in `Verif/Model/PyElem.lean`; the texts and numbers inside
packages, group ids, dictionaries and properties are not objects of their own here.  Of documents there
are the attributes `groups`, `categories`, `environments`, `clear` and the three searches; reading,
writing, merging and checking documents is in `Verif/Model/PyComps.lean`.

Left out: indices (a position is a natural number; `Verif/Model/PySeq.lean` has the arithmetic),
slices, iterators, sums of lists and entries, comparison, the texts of exceptions, failures of the
Python runtime, the object that `tp_new` makes and the caller destroys at once (for example
pycomps_groups.c:356-358).
-/

namespace Comps.PyHeap
open Comps Comps.Obj
open Comps.PyElem (Pkg EKind Attr PkgAttr GidAttr Arg GroupArgs EntryArgs PkgArgs GidArgs)
open Comps.PyDict (cstr)

/-! ## Objects -/

/-- The list types: `PackageList`, `IdList`, `GroupList`, `CategoryList`, `EnvList`
(pycomps_groups.c:653, pycomps_gids.c:291, pycomps_groups.c:507, pycomps_categories.c:375,
pycomps_envs.c:399). -/
inductive LKind where
  | packages | ids | groups | categories | environments
  deriving DecidableEq, Repr

/-- The Python types. -/
inductive PType where
  | package | groupId | dict
  | list (k : LKind)
  | entry (k : EKind)
  | comps
  deriving DecidableEq, Repr

/-- The attributes of documents that are lists of entries (pycomps.c:651-662: the closures of
`PyCOMPS_get_` and `PyCOMPS_set_`). -/
inductive DSec where
  | groups | categories | environments
  deriving DecidableEq, Repr

/-- The type in the closure. -/
def DSec.kind : DSec → LKind
  | .groups => .groups
  | .categories => .categories
  | .environments => .environments

/-- One pointer for each of the three attributes. -/
structure Three where
  groups : Option Nat
  categories : Option Nat
  environments : Option Nat

/-- The pointer for an attribute (`GET_FROM`, pycomps_macros.h:44). -/
def Three.get (t : Three) : DSec → Option Nat
  | .groups => t.groups
  | .categories => t.categories
  | .environments => t.environments

/-- The pointer for an attribute (`SET_TO`, pycomps_macros.h:43). -/
def Three.set (t : Three) (s : DSec) (x : Option Nat) : Three :=
  match s with
  | .groups => { t with groups := x }
  | .categories => { t with categories := x }
  | .environments => { t with environments := x }

/-- No pointers. -/
def Three.none : Three := ⟨Option.none, Option.none, Option.none⟩

/-- The pointers that are not NULL. -/
def Three.toList (t : Three) : List Nat :=
  t.groups.toList ++ t.categories.toList ++ t.environments.toList

/-- `itemtypes[0]` of a list type (pycomps_groups.c:364, 625, pycomps_gids.c:264,
pycomps_categories.c:292, pycomps_envs.c:312). -/
def LKind.elem : LKind → PType
  | .packages => .package
  | .ids => .groupId
  | .groups => .entry .group
  | .categories => .entry .category
  | .environments => .entry .environment

/-- Objects on the heap.  The first five are objects of the C library: comps_docpackage.h:41-49,
comps_docgroupid.h, comps_objradix.h, comps_objlist.h (`kind` is not a field in C and no call looks at
it: it says for which type the list was made), comps_docgroup.h, comps_doccategory.h, comps_docenv.h
(a NULL field is `none`; only environments have `options`).  `wrap` is a Python object: its type, its
field `c_obj`, `list` or `dict`, and, for entries, `p_name_by_lang` and `p_desc_by_lang`.  The fields
`p_packages`, `p_group_ids`, `p_option_ids` are NULL from `tp_new` on: `__PyCOMPS_get_ids`
(pycomps_utils.c:184-203) does not store what it makes and `__PyCOMPS_set_ids` (205-229) stores the old
value again.  `doc` is the document of a `Comps` object together with the fields `p_groups`,
`p_categories`, `p_environments` of that object (pycomps.h:65-74): only the `Comps` object refers to the
document, and it refers to one document at a time.  Of the document there are the lists in `objects`
(comps_doc.h), which is a dictionary with fixed keys. -/
inductive Body where
  | pkg (p : Pkg)
  | gid (g : GroupId)
  | dict (t : RTree PVal)
  | list (kind : LKind) (items : List Nat)
  | entry (k : EKind) (props : RTree PVal) (names descs list options : Option Nat)
  | wrap (t : PType) (obj : Nat) (names descs : Option Nat)
  | doc (lists caches : Three)

/-- The references an object gives up when it is freed: comps_objlist.c:57-66,
comps_docgroup.c:45-51, comps_doccategory.c:45-50, comps_docenv.c:47-53 and the functions `dealloc`
(pycomps_sequence.c:532-536, pycomps_dict.c:45-49, pycomps_groups.c:40-49, 694-698,
pycomps_gids.c:22-27, pycomps_categories.c:41-50, pycomps_envs.c:43-53, pycomps.c:809-818 with
comps_doc.c:57-67). -/
def Body.children : Body → List Nat
  | .pkg _ => []
  | .gid _ => []
  | .dict _ => []
  | .list _ items => items
  | .entry _ _ n d l o => n.toList ++ d.toList ++ l.toList ++ o.toList
  | .wrap _ a n d => n.toList ++ d.toList ++ [a]
  | .doc l c => c.toList ++ l.toList

/-- An object with its count: the number of references to it less one.  This is `refc->ref_count` of
the C library (comps_mm.c:21-32 starts it at 0); Python's count is one more. -/
structure Cell where
  rc : Nat
  body : Body

/-- Memory; `none` is a freed object.  Slots are not used again. -/
abbrev Heap := List (Option Cell)

/-- Reading an object through a pointer. -/
def load (h : Heap) (a : Nat) : Res Cell :=
  match h[a]? with
  | some (some c) => .ok c
  | _ => .error .useAfterFree

/-- Reading the contents of an object. -/
def read (h : Heap) (a : Nat) : Res Body := do return (← load h a).body

/-- comps_obj.c:7-16 `comps_object_create`, `tp_alloc`.  The references in the new object are given to
it. -/
def alloc (h : Heap) (b : Body) : Heap := h ++ [some ⟨0, b⟩]

/-- comps_obj.c:74-78 `comps_object_incref`, `Py_INCREF`. -/
def incref (h : Heap) (a : Nat) : Res Heap := do
  let c ← load h a
  return h.set a (some { c with rc := c.rc + 1 })

/-- comps_obj.c:74-78 on each of several objects. -/
def increfAll (h : Heap) : List Nat → Res Heap
  | [] => .ok h
  | a :: as => do increfAll (← incref h a) as

/-- Changing the contents of an object. -/
def write (h : Heap) (a : Nat) (b : Body) : Res Heap := do
  let c ← load h a
  return h.set a (some { c with body := b })

/-- comps_obj.c:18-26 `comps_object_destroy`, `Py_DECREF`, on each object of a list; as in
`Verif/Model/RefC.lean` an object is taken out of memory before what it owns is released. -/
def releaseAll : Nat → Heap → List Nat → Res Heap
  | _, h, [] => .ok h
  | 0, _, _ :: _ => .error .diverges
  | fuel + 1, h, a :: todo => do
    let c ← load h a
    if c.rc = 0 then releaseAll fuel (h.set a none) (c.body.children ++ todo)
    else releaseAll fuel (h.set a (some { c with rc := c.rc - 1 })) todo

/-- The references inside objects in memory (a bound for `releaseAll`). -/
def edges (h : Heap) : List Nat :=
  h.flatMap fun
    | some c => c.body.children
    | none => []

/-- comps_obj.c:18-26, `Py_DECREF`, on several objects. -/
def releases (h : Heap) (as : List Nat) : Res Heap := releaseAll (as.length + (edges h).length) h as

/-- comps_obj.c:18-26, `Py_DECREF`. -/
def release (h : Heap) (a : Nat) : Res Heap := releases h [a]

/-! ## Contents

The functions of this part only read; `ld` reads an object. -/

section
variable (ld : Nat → Res Body)

/-- The object as a `PyObject` of this library. -/
def asWrap (w : Nat) : Res (PType × Nat × Option Nat × Option Nat) := do
  match ← ld w with
  | .wrap t a n d => .ok (t, a, n, d)
  | _ => .error .typeConfusion

/-- The object as a `COMPS_ObjList`. -/
def asList (a : Nat) : Res (LKind × List Nat) := do
  match ← ld a with
  | .list k l => .ok (k, l)
  | _ => .error .typeConfusion

/-- The object as a `COMPS_ObjDict`. -/
def asDict (a : Nat) : Res (RTree PVal) := do
  match ← ld a with
  | .dict t => .ok t
  | _ => .error .typeConfusion

/-- A `COMPS_DocGroup`, `COMPS_DocCategory` or `COMPS_DocEnv`. -/
structure Ent where
  kind : EKind
  props : RTree PVal
  names : Option Nat
  descs : Option Nat
  list : Option Nat
  options : Option Nat

/-- The entry as contents of an object. -/
def Ent.body (e : Ent) : Body := .entry e.kind e.props e.names e.descs e.list e.options

/-- The object as an entry. -/
def asEnt (a : Nat) : Res Ent := do
  match ← ld a with
  | .entry k p n d l o => .ok ⟨k, p, n, d, l, o⟩
  | _ => .error .typeConfusion

/-- The object as a document. -/
def asDoc (a : Nat) : Res (Three × Three) := do
  match ← ld a with
  | .doc l c => .ok (l, c)
  | _ => .error .typeConfusion

/-- A pointer that must not be NULL. -/
def nonNull : Option Nat → Res Nat
  | some a => .ok a
  | none => .error .nullDeref

/-- pycomps_sequence.c:143-151: the id `list_unique_id_check` reads.  For packages there is a string at
`props_offset` (pycomps_groups.c:630) which is used as a dictionary. -/
def idOf (a : Nat) : Res (Option CStr) := do
  match ← ld a with
  | .entry _ p _ _ _ _ => asStr (p.get b!"id")
  | .pkg p => if p.name.isNone then .error .nullDeref else .error .typeConfusion
  | _ => .error .typeConfusion

/-- pycomps_sequence.c:70-77: what `list_getitem_byid` compares. -/
def keyOf (a : Nat) : Res (Option CStr) := do
  match ← ld a with
  | .entry _ p _ _ _ _ => asStr (p.get b!"id")
  | .pkg p =>
    match p.name with
    | none => .error .nullDeref
    | some s => .ok (some s)
  | _ => .error .typeConfusion

/-- pycomps_sequence.c:146-160: no member has the id. -/
def uniqueLoop (id : Option CStr) : List Nat → Res Bool
  | [] => .ok true
  | a :: as => do
    let id2 ← idOf ld a
    if objCmp CStr.cmp id id2 then .ok false else uniqueLoop id as

/-- pycomps_sequence.c:138-162 `list_unique_id_check`. -/
def unique (items : List Nat) (a : Nat) : Res Bool := do
  let id ← idOf ld a
  uniqueLoop ld id items

/-- pycomps_sequence.c:66-82: the first member with the id. -/
def findId (id : Bytes) : List Nat → Res (Option Nat)
  | [] => .ok none
  | a :: as => do
    let k ← keyOf ld a
    if objCmp CStr.cmp k (some ⟨some id⟩) then .ok (some a) else findId id as

/-- A package or group id. -/
inductive Leaf where
  | pkg (p : Pkg)
  | gid (g : GroupId)

/-- The object as a package or group id. -/
def asLeaf (a : Nat) : Res Leaf := do
  match ← ld a with
  | .pkg p => .ok (.pkg p)
  | .gid g => .ok (.gid g)
  | _ => .error .typeConfusion

/-- comps_docpackage.c:104-118, comps_docgroupid.c:71-86; the comparison function of the first is
called. -/
def Leaf.cmp : Leaf → Leaf → Bool
  | .pkg a, .pkg b => a.cmp b
  | .gid a, .gid b => a.cmp b
  | _, _ => false

/-- The members of a list of packages or group ids. -/
def leaves : List Nat → Res (List Leaf)
  | [] => .ok []
  | a :: as => do
    let x ← asLeaf ld a
    let xs ← leaves as
    return x :: xs

/-- Did a check find nothing (`__pycomps_validate_process`, pycomps_utils.c:399-411). -/
def fine : Val.ValRes Unit → Bool
  | .ok => true
  | .err _ => false

/-- comps_docpackage.c:242-248, comps_docgroupid.c:153-159: the name is set and not empty
(`comps_empty_check`). -/
def nameFine (s : Option CStr) : Res Bool := do return fine (← Val.emptyCheck () (Val.strVal s))

/-- `comps_objlist_unique_check` (comps_validate.c:164-208) on a list of packages or group ids. -/
def listFine (a : Nat) : Res Bool := do
  let (_, items) ← asList ld a
  let xs ← leaves ld items
  return fine (← Val.uniqueList Leaf.cmp () (some xs))

/-- The list check on the second list of an environment; the others have none. -/
def optFine : Option Nat → Res Bool
  | none => .ok true
  | some a => listFine ld a

/-- The checks before an object enters a list: `pycomps_package_validate`, `pycomps_gid_validate`,
`pycomps_group_validate`, `pycomps_category_validate`, `pycomps_env_validate` with the rules at
comps_docpackage.c:242-248, comps_docgroupid.c:153-159, comps_docgroup.c:460-470,
comps_doccategory.c:378-388, comps_docenv.c:489-503. -/
def passes (a : Nat) : Res Bool := do
  match ← ld a with
  | .pkg p => nameFine p.name
  | .gid g => nameFine g.name
  | .entry _ p _ _ l o => do
    let x ← nameFine (← asStr (p.get b!"id"))
    let y ← listFine ld (← nonNull l)
    let z ← optFine ld o
    return x && y && z
  | _ => .error .typeConfusion

/-- comps_docgroup.c:107-118: the packages that match. -/
def matching (name : Option Bytes) (type : Int) : List Nat → Res (List Nat)
  | [] => .ok []
  | a :: as => do
    match ← asLeaf ld a with
    | .pkg p => do
      let rest ← matching name type as
      return if PyElem.pkgMatches name type p then a :: rest else rest
    | .gid _ => .error .typeConfusion

/-- comps_doc.c:488-516 (groups), 546-573 (categories), 603-630 (environments): is the entry part of the
answer?  `groupMatches`, `categoryMatches`, `envMatches` of `Verif/Model/Doc.lean`, which differ for
descriptions; the type of the list searched decides.  The dictionaries are read in any case, in C only if
a language is given. -/
def entMatches (fn : Bytes → Bytes → Bool) (s : DSec) (q : Query) (a : Nat) : Res Bool := do
  let e ← asEnt ld a
  let names ← asDict ld (← nonNull e.names)
  let descs ← asDict ld (← nonNull e.descs)
  let x ← matchId fn e.props q
  let y ← matchLang fn b!"name" e.props names q.name q.lang
  let z ← match s with
    | .groups => matchDescGroup fn e.props descs q.desc q.lang
    | _ => matchLang fn b!"desc" e.props descs q.desc q.lang
  return x + y + z == q.max

/-- comps_doc.c:488-518, 546-575, 603-632: the entries that match. -/
def matchingEnts (fn : Bytes → Bytes → Bool) (s : DSec) (q : Query) : List Nat → Res (List Nat)
  | [] => .ok []
  | a :: as => do
    let x ← entMatches ld fn s q a
    let rest ← matchingEnts fn s q as
    return if x then a :: rest else rest

end

/-! ## Programs -/

/-- The arguments of a search, each of them optional, with what `fnmatch` of the C library answers for a
pattern and a text with the flags given. -/
structure SearchArgs where
  id : Option Arg
  name : Option Arg
  desc : Option Arg
  lang : Option Arg
  fn : Bytes → Bytes → Bool

/-- `PyArg_ParseTupleAndKeywords(args, kwds, "|ssss", ...)`, pycomps.c:554-555, 575-576, 596-597; the
number of the flags is left out. -/
def parseQuery (a : SearchArgs) : Except PyElem.Exc Query := do
  let id ← PyElem.parseStr a.id
  let name ← PyElem.parseStr a.name
  let desc ← PyElem.parseStr a.desc
  let lang ← PyElem.parseStr a.lang
  return ⟨id, name, desc, lang⟩


/-- The exceptions raised by lists and dictionaries, and those of `Verif/Model/PyElem.lean`. -/
inductive Exc where
  | indexError | keyError | typeError | valueError
  | elem (e : PyElem.Exc)
  deriving DecidableEq, Repr

/-- What the program sees of a call. -/
inductive Obs where
  | none
  /-- the result is a new object of this library, in a new variable -/
  | object
  | exc (e : Exc)
  | out (o : PyElem.Out)
  | val (v : Except PyElem.Exc PyElem.Val)
  | num (n : Nat)
  | bool (b : Bool)
  /-- the variable is not bound: `NameError` -/
  | noVar
  /-- the object has no such attribute or method: `AttributeError`, `TypeError` -/
  | refused

/-- The calls.  Variables are numbered in the order they are bound; `v` and `w` are variables. -/
inductive Op where
  | newGroup (a : GroupArgs)
  /-- `Category(...)`, `Environment(...)` -/
  | newEntry (env : Bool) (a : EntryArgs)
  | newPackage (a : PkgArgs)
  | newGroupId (a : GidArgs)
  | newDict
  | newList (k : LKind)
  /-- `x = v` -/
  | dup (v : Nat)
  /-- `del v` (the variable) -/
  | del (v : Nat)
  /-- `v is w` -/
  | same (v w : Nat)
  | getAttr (v : Nat) (a : Attr)
  | setAttr (v : Nat) (a : Attr) (x : Option Arg)
  | getPkg (v : Nat) (a : PkgAttr)
  | setPkg (v : Nat) (a : PkgAttr) (x : Option Arg)
  | getGid (v : Nat) (a : GidAttr)
  | setGid (v : Nat) (a : GidAttr) (x : Option Arg)
  /-- `x = v.packages`, `x = v.group_ids`, `x = v.option_ids` -/
  | getList (v : Nat) (options : Bool)
  | setList (v : Nat) (options : Bool) (w : Nat)
  /-- `x = v.name_by_lang`, `x = v.desc_by_lang` -/
  | getDict (v : Nat) (desc : Bool)
  | setDict (v : Nat) (desc : Bool) (w : Nat)
  /-- `v[key] = text`, both strings with an encoding -/
  | dictSet (v : Nat) (key text : Bytes)
  /-- `v.get(key)` -/
  | dictGet (v : Nat) (key : Bytes)
  | len (v : Nat)
  /-- `x = v[i]` -/
  | getItem (v i : Nat)
  /-- `x = v["id"]` -/
  | getById (v : Nat) (id : Bytes)
  | append (v w : Nat)
  /-- `v.append("id")`; the argument by its encoding if it has one -/
  | appendStr (v : Nat) (s : Option Bytes)
  | insert (v i w : Nat)
  | setItem (v i w : Nat)
  | delItem (v i : Nat)
  | remove (v w : Nat)
  | clear (v : Nat)
  /-- `x = v.packages_match(name, type)` -/
  | packagesMatch (v : Nat) (name type : Option Arg)
  /-- `v.validate()` of an entry, package or group id -/
  | validate (v : Nat)
  /-- `Comps()` -/
  | newComps
  /-- `x = v.groups`, `x = v.categories`, `x = v.environments` -/
  | getSec (v : Nat) (s : DSec)
  | setSec (v : Nat) (s : DSec) (w : Nat)
  /-- `del v.groups` and so on -/
  | delSec (v : Nat) (s : DSec)
  /-- `x = v.groups_match(...)`, `x = v.categories_match(...)`, `x = v.envs_match(...)` -/
  | search (v : Nat) (s : DSec) (a : SearchArgs)

/-- A Python program at work: memory and variables. -/
structure St where
  heap : Heap
  vars : List (Option Nat)

/-- Before the first call. -/
def start : St := ⟨[], []⟩

/-- The Python object a variable is bound to. -/
def var (vars : List (Option Nat)) (v : Nat) : Option Nat :=
  match vars[v]? with
  | some (some w) => some w
  | _ => none

/-- Binding a new variable to an object; the reference is given to it. -/
def St.push (st : St) (w : Nat) : St := { st with vars := st.vars ++ [some w] }

/-- A new Python object around an object of the C library whose reference is given to it, in a new
variable: `comps_groups_out` and the like (pycomps_groups.c:354-361, 551-558, pycomps_gids.c:254-261,
pycomps_categories.c:282-289, pycomps_envs.c:302-309), pycomps_utils.c:190-198, 235-243. -/
def St.wrapUp (st : St) (t : PType) (a : Nat) : St :=
  { heap := alloc st.heap (.wrap t a none none), vars := st.vars ++ [some st.heap.length] }

/-- The list types with `append_unique` (pycomps_groups.c:497-500, pycomps_categories.c:365-368,
pycomps_envs.c:388-391). -/
def LKind.keyed : LKind → Bool
  | .packages => false
  | .ids => false
  | _ => true

/-- The list types with `PyCOMPSSeq_mapping_extra` (pycomps_groups.c:520, 666,
pycomps_categories.c:388, pycomps_envs.c:412). -/
def LKind.extra : LKind → Bool
  | .ids => false
  | _ => true

/-- The type of `packages`, `group_ids`, `option_ids` in the closures (pycomps_groups.c:260-265,
pycomps_categories.c:157-162, pycomps_envs.c:207-219). -/
def listType : EKind → LKind
  | .group => .packages
  | .category => .ids
  | .environment => .ids

section
variable (lt : UInt8 → UInt8 → Bool) (utf8 : Bytes → Bool)

/-- `Group(...)`, `Category(...)`, `Environment(...)`: `tp_new` (pycomps_groups.c:51-66) with
comps_docgroup.c:23-29, comps_doccategory.c:23-29, comps_docenv.c:23-30.  If `tp_init` fails, the
object is freed at once. -/
def newEntry (st : St) (k : EKind) (props : RTree PVal) : St :=
  let h := st.heap
  let n := h.length
  let h := alloc h (.dict RTree.create)
  let h := alloc h (.dict RTree.create)
  let h := alloc h (.list (listType k) [])
  match k with
  | .environment =>
    let h := alloc h (.list .ids [])
    let h := alloc h (.entry k props (some n) (some (n + 1)) (some (n + 2)) (some (n + 3)))
    St.wrapUp { st with heap := h } (.entry k) (n + 4)
  | _ =>
    let h := alloc h (.entry k props (some n) (some (n + 1)) (some (n + 2)) none)
    St.wrapUp { st with heap := h } (.entry k) (n + 3)

/-- A new package, group id, list or dictionary: `tp_new` (pycomps_groups.c:700-710,
pycomps_gids.c:29-41, pycomps_sequence.c:538-551, pycomps_dict.c:51-63). -/
def newPlain (st : St) (t : PType) (b : Body) : St :=
  St.wrapUp { st with heap := alloc st.heap b } t st.heap.length

/-- pycomps_utils.c:184-203 `__PyCOMPS_get_ids`. -/
def getList (st : St) (k : EKind) (a : Nat) (options : Bool) : Res (St × Obs) := do
  let e ← asEnt (read st.heap) a
  let l ← nonNull (if options then e.options else e.list)
  let h ← incref st.heap l
  return (St.wrapUp { st with heap := h } (.list (listType k)) l, .object)

/-- pycomps_utils.c:205-229 `__PyCOMPS_set_ids` with the setter of comps_utils.h:148-153; `v` is the
value.  The field of the entry is emptied while the old list is released.  The reference taken at
225 is given to nobody. -/
def setList (st : St) (a : Nat) (options : Bool) (v l : Nat) : Res (St × Obs) := do
  let e ← asEnt (read st.heap) a
  let old := if options then e.options else e.list
  let h ← write st.heap a (if options then { e with options := none } else { e with list := none }).body
  let h ← releases h old.toList
  let h ← incref h l
  let h ← write h a
    (if options then { e with options := some l } else { e with list := some l }).body
  let h ← incref h v
  return ({ st with heap := h }, .none)

/-- pycomps_utils.c:231-250 `__PyCOMPS_get_dict`. -/
def getDict (st : St) (a : Nat) (cache : Option Nat) (desc : Bool) : Res (St × Obs) :=
  match cache with
  | some w => do
    let h ← incref st.heap w
    return (St.push { st with heap := h } w, .object)
  | none => do
    let e ← asEnt (read st.heap) a
    let d ← nonNull (if desc then e.descs else e.names)
    let h ← incref st.heap d
    return (St.wrapUp { st with heap := h } .dict d, .object)

/-- pycomps_utils.c:252-287 `__PyCOMPS_set_dict`: `w` is the Python object of the entry, `v` the value
and `d` its dictionary.  Fields are emptied while what they held is released. -/
def setDict (st : St) (w a : Nat) (desc : Bool) (v d : Nat) : Res (St × Obs) := do
  let e ← asEnt (read st.heap) a
  let old := if desc then e.descs else e.names
  let h ← write st.heap a (if desc then { e with descs := none } else { e with names := none }).body
  let h ← releases h old.toList
  let h ← incref h d
  let h ← write h a (if desc then { e with descs := some d } else { e with names := some d }).body
  let (t, a', cn, cd) ← asWrap (read h) w
  let oldc := if desc then cd else cn
  let h ← write h w (if desc then .wrap t a' cn none else .wrap t a' none cd)
  let h ← releases h oldc.toList
  let h ← incref h v
  let h ← write h w (if desc then .wrap t a' cn (some v) else .wrap t a' (some v) cd)
  return ({ st with heap := h }, .none)

/-- pycomps_sequence.c:32-48 `list_getitem`; `comps_objlist_get` (comps_objlist.c:76-90) counts the
member, the new Python object takes the reference. -/
def getItem (st : St) (k : LKind) (l i : Nat) : Res (St × Obs) := do
  let (_, items) ← asList (read st.heap) l
  match items[i]? with
  | none => return (st, .exc .indexError)
  | some a => do
    let h ← incref st.heap a
    return (St.wrapUp { st with heap := h } k.elem a, .object)

/-- pycomps_sequence.c:50-89 `list_getitem_byid`. -/
def getById (st : St) (k : LKind) (l : Nat) (id : Bytes) : Res (St × Obs) := do
  let (_, items) ← asList (read st.heap) l
  match ← findId (read st.heap) id items with
  | none => return (st, .exc .keyError)
  | some a => do
    let h ← incref st.heap a
    return (St.wrapUp { st with heap := h } k.elem a, .object)

/-- pycomps_sequence.c:445-450, 501-506: the check, then the reference of the caller goes into the
list, at position `i`. -/
def putIn (st : St) (l i a : Nat) : Res (St × Obs) := do
  if ← passes (read st.heap) a then
    let (kind, items) ← asList (read st.heap) l
    let h ← write st.heap l (.list kind (items.take i ++ a :: items.drop i))
    return ({ st with heap := h }, .none)
  else
    let h ← release st.heap a
    return ({ st with heap := h }, .exc .valueError)

/-- pycomps_sequence.c:436-452 `PyCOMPSSeq_append`, 487-508 `PyCOMPSSeq_append_unique`, with an object
`a` of the right type. -/
def append (st : St) (k : LKind) (l a : Nat) : Res (St × Obs) := do
  let h ← incref st.heap a
  let (_, items) ← asList (read h) l
  if ← (if k.keyed then unique (read h) items a else .ok true) then
    putIn { st with heap := h } l items.length a
  else
    let h ← release h a
    return ({ st with heap := h }, .exc .keyError)

/-- `append` of a string to a list of group ids: `comps_gids_str_in` (pycomps_gids.c:249-252) makes the
object (`comps_gid_from_str`, 135-147). -/
def appendStr (st : St) (l : Nat) (s : Option Bytes) : Res (St × Obs) :=
  match s with
  | none => .ok (st, .exc .typeError)
  | some b => do
    let a := st.heap.length
    let h := alloc st.heap (.gid { GroupId.create with name := some (compsStr (some (cstr b))) })
    let (_, items) ← asList (read h) l
    putIn { st with heap := h } l items.length a

/-- pycomps_sequence.c:454-485 `PyCOMPSSeq_insert`: a position after the end is the end. -/
def insert (st : St) (l i a : Nat) : Res (St × Obs) := do
  let h ← incref st.heap a
  let (_, items) ← asList (read h) l
  putIn { st with heap := h } l (min i items.length) a

/-- comps_objlist.c:432-446 `comps_objlist_set`: the old member is released before the new one is
counted.  The list is one shorter while the old member is released. -/
def listSet (h : Heap) (l i a : Nat) : Res Heap := do
  let (kind, items) ← asList (read h) l
  match items[i]? with
  | none => .ok h
  | some old => do
    let h ← write h l (.list kind (items.eraseIdx i))
    let h ← release h old
    let h ← incref h a
    write h l (.list kind (items.set i a))

/-- pycomps_sequence.c:108-136 `list_setitem`, 164-192 `list_setitem_id_unique` with an object of the
right type.  The reference of `list_setitem_convert` is released only when a check fails. -/
def setItem (st : St) (k : LKind) (l i a : Nat) : Res (St × Obs) := do
  let h ← incref st.heap a
  let (_, items) ← asList (read h) l
  if items.length ≤ i then return ({ st with heap := h }, .exc .indexError)
  else if k.extra then
    if ← unique (read h) items a then
      let h ← listSet h l i a
      return ({ st with heap := h }, .none)
    else
      let h ← release h a
      return ({ st with heap := h }, .exc .keyError)
  else
    if ← passes (read h) a then
      let h ← listSet h l i a
      return ({ st with heap := h }, .none)
    else
      let h ← release h a
      return ({ st with heap := h }, .exc .valueError)

/-- pycomps_sequence.c:108-136, 164-192 without an item; comps_objlist.c:250-271. -/
def delItem (st : St) (l i : Nat) : Res (St × Obs) := do
  let (kind, items) ← asList (read st.heap) l
  match items[i]? with
  | none => return (st, .exc .indexError)
  | some old => do
    let h ← write st.heap l (.list kind (items.eraseIdx i))
    let h ← release h old
    return ({ st with heap := h }, .none)

/-- pycomps_sequence.c:510-531 `PyCOMPSSeq_remove`, comps_objlist.c:273-292: the first position of the
object.  The reference of `list_setitem_convert` is never released. -/
def remove (st : St) (l a : Nat) : Res (St × Obs) := do
  let h ← incref st.heap a
  let (kind, items) ← asList (read h) l
  if a ∈ items then
    let h ← write h l (.list kind (items.erase a))
    let h ← release h a
    return ({ st with heap := h }, .none)
  else return ({ st with heap := h }, .exc .valueError)

/-- pycomps_sequence.c:604-607 `PyCOMPSSeq_clear`, comps_objlist.c:69-74. -/
def clear (st : St) (l : Nat) : Res (St × Obs) := do
  let (kind, items) ← asList (read st.heap) l
  let h ← write st.heap l (.list kind [])
  let h ← releases h items
  return ({ st with heap := h }, .none)

/-- pycomps_groups.c:438-457 `PyCOMPSGroup_packages_match` with comps_docgroup.c:93-121. -/
def packagesMatch (st : St) (a : Nat) (name type : Option Arg) : Res (St × Obs) :=
  match PyElem.parseStr name, PyElem.parseType type with
  | .error e, _ => .ok (st, .exc (.elem e))
  | .ok _, .error e => .ok (st, .exc (.elem e))
  | .ok name, .ok type => do
    let e ← asEnt (read st.heap) a
    let l ← nonNull e.list
    let (_, items) ← asList (read st.heap) l
    let found ← matching (read st.heap) name type items
    let h ← increfAll st.heap found
    return (newPlain { st with heap := h } (.list .packages) (.list .packages found), .object)

/-- comps_doc.h:44-54 `comps_doc_groups`, `comps_doc_categories`, `comps_doc_environments`: the list is
made if there is none.  The reference for the caller is not counted here. -/
def secList (h : Heap) (a : Nat) (s : DSec) : Res (Heap × Nat) := do
  let (ls, cs) ← asDoc (read h) a
  match ls.get s with
  | some l => .ok (h, l)
  | none => do
    let l := h.length
    let h ← write (alloc h (.list s.kind [])) a (.doc (ls.set s (some l)) cs)
    return (h, l)

/-- pycomps.c:382-404 `PyCOMPS_get_`: the Python object is made the first time and kept. -/
def getSec (st : St) (a : Nat) (s : DSec) : Res (St × Obs) := do
  let (_, cs) ← asDoc (read st.heap) a
  match cs.get s with
  | some w => do
    let h ← incref st.heap w
    return (St.push { st with heap := h } w, .object)
  | none => do
    let (h, l) ← secList st.heap a s
    let h ← incref h l
    let w := h.length
    let h := alloc h (.wrap (.list s.kind) l none none)
    let (ls, cs) ← asDoc (read h) a
    let h ← write h a (.doc ls (cs.set s (some w)))
    let h ← incref h w
    return (St.push { st with heap := h } w, .object)

/-- pycomps.c:449-468 `PyCOMPS_set_` with a value `v` of the right type around the list `l`;
comps_doc.h:61-65 with comps_objradix.c:387-390, 450-452.  Fields are emptied while what they held is
released. -/
def setSec (st : St) (a : Nat) (s : DSec) (v l : Nat) : Res (St × Obs) := do
  let (ls, cs) ← asDoc (read st.heap) a
  let h ← write st.heap a (.doc ls (cs.set s none))
  let h ← releases h (cs.get s).toList
  let h ← incref h l
  let h ← write h a (.doc (ls.set s none) (cs.set s none))
  let h ← releases h (ls.get s).toList
  let h ← write h a (.doc (ls.set s (some l)) (cs.set s none))
  let h ← incref h v
  let h ← write h a (.doc (ls.set s (some l)) (cs.set s (some v)))
  return ({ st with heap := h }, .none)

/-- pycomps.c:201-211 `PyCOMPS_clear`: a new document; the Python objects kept stay. -/
def clearDoc (st : St) (a : Nat) : Res (St × Obs) := do
  let (ls, cs) ← asDoc (read st.heap) a
  let h ← write st.heap a (.doc Three.none cs)
  let h ← releases h ls.toList
  return ({ st with heap := h }, .none)

/-- pycomps.c:546-607 `PyCOMPS_groups_match`, `PyCOMPS_categories_match`, `PyCOMPS_envs_match` with
comps_doc.c:468-637.  The reference to the list searched is taken and given back. -/
def search (st : St) (a : Nat) (s : DSec) (args : SearchArgs) : Res (St × Obs) :=
  match parseQuery args with
  | .error e => .ok (st, .exc (.elem e))
  | .ok q => do
    let (h, l) ← secList st.heap a s
    let (_, items) ← asList (read h) l
    let found ← matchingEnts (read h) args.fn s q items
    let h ← increfAll h found
    return (newPlain { st with heap := h } (.list s.kind) (.list s.kind found), .object)

/-- Writing the value part of an object after a setter of `Verif/Model/PyElem.lean`. -/
def putValue (st : St) (a : Nat) (b : Body) (o : PyElem.Out) : Res (St × Obs) := do
  let h ← write st.heap a b
  return ({ st with heap := h }, .out o)

/-- A call with one object: the function gets the Python object, its type and its fields. -/
def with1 (st : St) (v : Nat)
    (f : Nat → PType → Nat → Option Nat → Option Nat → Res (St × Obs)) : Res (St × Obs) :=
  match var st.vars v with
  | none => .ok (st, .noVar)
  | some w => do
    let (t, a, n, d) ← asWrap (read st.heap) w
    f w t a n d

/-- A call with two objects. -/
def with2 (st : St) (v v2 : Nat)
    (f : Nat → PType → Nat → Nat → PType → Nat → Res (St × Obs)) : Res (St × Obs) :=
  with1 st v fun w t a _ _ => with1 st v2 fun w2 t2 a2 _ _ => f w t a w2 t2 a2

/-- One call (the lines are with the functions called). -/
def step (st : St) : Op → Res (St × Obs)
  | .newGroup args =>
    match PyElem.groupInit lt args with
    | .error e => .ok (st, .exc (.elem e))
    | .ok p => .ok (newEntry st .group p, .object)
  | .newEntry env args =>
    match PyElem.entryInit lt args with
    | .error e => .ok (st, .exc (.elem e))
    | .ok p => .ok (newEntry st (if env then .environment else .category) p, .object)
  | .newPackage args =>
    match PyElem.pkgInit args with
    | .error e => .ok (st, .exc (.elem e))
    | .ok p => .ok (newPlain st .package (.pkg p), .object)
  | .newGroupId args =>
    match PyElem.gidInit args with
    | .error e => .ok (st, .exc (.elem e))
    | .ok g => .ok (newPlain st .groupId (.gid g), .object)
  | .newDict => .ok (newPlain st .dict (.dict RTree.create), .object)
  | .newList k => .ok (newPlain st (.list k) (.list k []), .object)
  | .dup v =>
    match var st.vars v with
    | none => .ok (st, .noVar)
    | some w => do
      let h ← incref st.heap w
      return (St.push { st with heap := h } w, .object)
  | .del v =>
    match var st.vars v with
    | none => .ok (st, .noVar)
    | some w => do
      let h ← release st.heap w
      return ({ heap := h, vars := st.vars.set v none }, .none)
  | .same v v2 =>
    match var st.vars v, var st.vars v2 with
    | some w, some w2 => .ok (st, .bool (w == w2))
    | _, _ => .ok (st, .noVar)
  | .getAttr v at' => with1 st v fun _ t a _ _ =>
    match t with
    | .entry k =>
      if k.has at' then do
        let e ← asEnt (read st.heap) a
        let r ← PyElem.getAttr utf8 at' e.props
        return (st, .val r)
      else .ok (st, .refused)
    | _ => .ok (st, .refused)
  | .setAttr v at' x => with1 st v fun _ t a _ _ =>
    match t with
    | .entry k =>
      if k.has at' then do
        let e ← asEnt (read st.heap) a
        let (p, o) ← PyElem.setAttr lt at' e.props x
        putValue st a { e with props := p }.body o
      else .ok (st, .refused)
    | _ => .ok (st, .refused)
  | .getPkg v at' => with1 st v fun _ t a _ _ =>
    match t with
    | .package => do
      match ← read st.heap a with
      | .pkg p => do return (st, .val (← p.getAttr utf8 at'))
      | _ => .error .typeConfusion
    | _ => .ok (st, .refused)
  | .setPkg v at' x => with1 st v fun _ t a _ _ =>
    match t with
    | .package => do
      match ← read st.heap a with
      | .pkg p => do
        let (p, o) ← p.setAttr at' x
        putValue st a (.pkg p) o
      | _ => .error .typeConfusion
    | _ => .ok (st, .refused)
  | .getGid v at' => with1 st v fun _ t a _ _ =>
    match t with
    | .groupId => do
      match ← read st.heap a with
      | .gid g => do return (st, .val (← PyElem.gidGetAttr utf8 g at'))
      | _ => .error .typeConfusion
    | _ => .ok (st, .refused)
  | .setGid v at' x => with1 st v fun _ t a _ _ =>
    match t with
    | .groupId => do
      match ← read st.heap a with
      | .gid g => do
        let (g, o) ← PyElem.gidSetAttr g at' x
        putValue st a (.gid g) o
      | _ => .error .typeConfusion
    | _ => .ok (st, .refused)
  | .getList v options => with1 st v fun _ t a _ _ =>
    match t with
    | .entry k => if options && k != .environment then .ok (st, .refused) else getList st k a options
    | _ => .ok (st, .refused)
  | .setList v options v2 => with2 st v v2 fun _ t a w2 t2 l =>
    match t with
    | .entry k =>
      if options && k != .environment then .ok (st, .refused)
      else if t2 = .list (listType k) then setList st a options w2 l
      else .ok (st, .exc .typeError)
    | _ => .ok (st, .refused)
  | .getDict v desc => with1 st v fun _ t a n d =>
    match t with
    | .entry _ => getDict st a (if desc then d else n) desc
    | _ => .ok (st, .refused)
  | .setDict v desc v2 => with2 st v v2 fun w t a w2 t2 d =>
    match t with
    | .entry _ => if t2 = .dict then setDict st w a desc w2 d else .ok (st, .exc .typeError)
    | _ => .ok (st, .refused)
  | .dictSet v k x => with1 st v fun _ t a _ _ =>
    match t with
    | .dict => do
      let d ← asDict (read st.heap) a
      let h ← write st.heap a (.dict (d.set lt (cstr k) (some (.str ⟨some (cstr x)⟩))))
      return ({ st with heap := h }, .none)
    | _ => .ok (st, .refused)
  | .dictGet v k => with1 st v fun _ t a _ _ =>
    match t with
    | .dict => do
      let d ← asDict (read st.heap) a
      let r ← PyElem.getStrAttr utf8 (d.get (cstr k))
      return (st, .val r)
    | _ => .ok (st, .refused)
  | .len v => with1 st v fun _ t a _ _ =>
    match t with
    | .list _ => do
      let (_, items) ← asList (read st.heap) a
      return (st, .num items.length)
    | _ => .ok (st, .refused)
  | .getItem v i => with1 st v fun _ t a _ _ =>
    match t with
    | .list k => getItem st k a i
    | _ => .ok (st, .refused)
  | .getById v id => with1 st v fun _ t a _ _ =>
    match t with
    | .list k => if k.extra then getById st k a id else .ok (st, .exc .typeError)
    | _ => .ok (st, .refused)
  | .append v v2 => with2 st v v2 fun _ t l _ t2 a =>
    match t with
    | .list k => if t2 = k.elem then append st k l a else .ok (st, .exc .typeError)
    | _ => .ok (st, .refused)
  | .appendStr v s => with1 st v fun _ t l _ _ =>
    match t with
    | .list .ids => appendStr st l s
    | .list _ => .ok (st, .exc .typeError)
    | _ => .ok (st, .refused)
  | .insert v i v2 => with2 st v v2 fun _ t l _ t2 a =>
    match t with
    | .list k => if t2 = k.elem then insert st l i a else .ok (st, .exc .typeError)
    | _ => .ok (st, .refused)
  | .setItem v i v2 => with2 st v v2 fun _ t l _ t2 a =>
    match t with
    | .list k => if t2 = k.elem then setItem st k l i a else .ok (st, .exc .typeError)
    | _ => .ok (st, .refused)
  | .delItem v i => with1 st v fun _ t l _ _ =>
    match t with
    | .list _ => delItem st l i
    | _ => .ok (st, .refused)
  | .remove v v2 => with2 st v v2 fun _ t l _ t2 a =>
    match t with
    | .list k => if t2 = k.elem then remove st l a else .ok (st, .exc .typeError)
    | _ => .ok (st, .refused)
  | .clear v => with1 st v fun _ t l _ _ =>
    match t with
    | .list _ => clear st l
    | .comps => clearDoc st l
    | _ => .ok (st, .refused)
  | .packagesMatch v name type => with1 st v fun _ t a _ _ =>
    match t with
    | .entry .group => packagesMatch st a name type
    | _ => .ok (st, .refused)
  | .validate v => with1 st v fun _ t a _ _ =>
    -- pycomps_groups.c:183-197, 560-573, pycomps_categories.c:141-155, pycomps_envs.c:143-156,
    -- pycomps_gids.c:181-194
    match t with
    | .package | .groupId | .entry _ => do
      return (st, if ← passes (read st.heap) a then .none else .exc .valueError)
    | _ => .ok (st, .refused)
  | .newComps => .ok (newPlain st .comps (.doc Three.none Three.none), .object)
  | .getSec v s => with1 st v fun _ t a _ _ =>
    match t with
    | .comps => getSec st a s
    | _ => .ok (st, .refused)
  | .setSec v s v2 => with2 st v v2 fun _ t a w2 t2 l =>
    match t with
    | .comps => if t2 = .list s.kind then setSec st a s w2 l else .ok (st, .exc .typeError)
    | _ => .ok (st, .refused)
  | .delSec v _ => with1 st v fun _ t _ _ _ =>
    match t with
    -- pycomps.c:452: the type of NULL
    | .comps => .error .nullDeref
    | _ => .ok (st, .refused)
  | .search v s args => with1 st v fun _ t a _ _ =>
    match t with
    | .comps => search st a s args
    | _ => .ok (st, .refused)

/-- A program: what it sees, call by call. -/
def run : St → List Op → Res (St × List Obs)
  | st, [] => .ok (st, [])
  | st, op :: ops => do
    let (st, o) ← step lt utf8 st op
    let (st, os) ← run st ops
    return (st, o :: os)

end
end Comps.PyHeap
