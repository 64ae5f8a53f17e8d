import Verif.Model.Parse
import Verif.Model.ValidateDoc

/-!
# Python documents

`/repo/libcomps/src/python/src/pycomps.c`: the class `libcomps.Comps`.  The object holds a document and
keeps, for each of its six attributes, the Python list or dictionary it handed out the first time the
attribute was read ("cache", the fields `p_groups` ... `p_whiteout`, pycomps.h:65-74).  Three kinds of
objects are counted here: the lists and dictionaries of the C library, the Python objects that wrap
them, and the documents.

Left out: the reference counts of everything inside a list or dictionary (`Verif/Model/PyDict.lean` has
them for dictionaries of strings), so an entry that sits in two lists is two entries here; more than
one Python reference to the same `Comps` object; the list that `PyCOMPSSeq_new` makes and
`PyCOMPS_get_` destroys at once (pycomps.c:389-392); the texts of exceptions.
-/

namespace Comps.PyComps
open Comps Comps.Obj Comps.Xml Comps.Parse

/-- The six attributes, pycomps.c:677-697. -/
inductive Sec where
  | groups | categories | environments | langpacks | blacklist | whiteout
  deriving DecidableEq, Repr

/-- pycomps.c:677-697. -/
def allSecs : List Sec := [.groups, .categories, .environments, .langpacks, .blacklist, .whiteout]

/-- The Python types of the attributes (pycomps.c:650-675): `GroupList`, `CategoryList`, `EnvList`,
`StrDict`, `MDict`. -/
inductive Kind where
  | groups | categories | environments | dict | mdict
  deriving DecidableEq, Repr

/-- pycomps.c:650-675: the type in the closure of an attribute. -/
def Sec.kind : Sec → Kind
  | .groups => .groups
  | .categories => .categories
  | .environments => .environments
  | .langpacks => .dict
  | .blacklist => .mdict
  | .whiteout => .mdict

/-- comps_doc.c:155-172: the key in `doc->objects`. -/
def Sec.key : Sec → Bytes
  | .groups => b!"groups"
  | .categories => b!"categories"
  | .environments => b!"environments"
  | .langpacks => b!"langpacks"
  | .blacklist => b!"blacklist"
  | .whiteout => b!"whiteout"

/-- comps_doc.h:49, 77, 93, pycomps_sequence.c:547, pycomps_dict.c:60, pycomps_mdict.c:64: a new
list or dictionary. -/
def Kind.empty : Kind → DocVal
  | .groups => .groups []
  | .categories => .cats []
  | .environments => .envs []
  | .dict => .dict RTree.create
  | .mdict => .mdict MTree.create

/-- The type of a list or dictionary of the C library; `comps_doc_set_lang` is not reachable from
Python (pycomps.c:677-697), so a string is none of them. -/
def kindOf : DocVal → Option Kind
  | .groups _ => some .groups
  | .cats _ => some .categories
  | .envs _ => some .environments
  | .dict _ => some .dict
  | .mdict _ => some .mdict
  | .str _ => none

/-! ## State -/

/-- A list or dictionary of the C library with its `refc->ref_count`, which is 0 for a new object
(comps_obj.h, comps_mm.c:21-32). -/
structure Obj where
  rc : Nat
  val : DocVal

/-- The Python object around it (pycomps_sequence.h, pycomps_dict.h, pycomps_mdict.h) with its Python
reference count; `obj` is the field `list` or `dict`. -/
structure Wrap where
  refs : Nat
  kind : Kind
  obj : Nat

/-- pycomps.h:65-74 `PyCOMPS` with its `COMPS_Doc` (comps_doc.h:229-240): `secs` says what is in
`doc->objects`.  The keys are no prefixes of each other, so the entries of that dictionary are
independent (C01, C03). -/
structure PyDoc where
  secs : Sec → Option Nat
  cache : Sec → Option Nat
  encoding : Option CStr
  doctypeName : Option CStr
  doctypeSysid : Option CStr
  doctypePubid : Option CStr
  log : List LogEntry

/-- A Python program at work: the objects of the C library and the Python objects by address (`none`
once freed), the `Comps` objects, the variables that hold lists and dictionaries.  `lost` is not part
of the program: it records the references that nobody holds any more (`dealloc`). -/
structure St where
  objs : List (Option Obj)
  wraps : List (Option Wrap)
  docs : List (Option PyDoc)
  vars : List (Option Nat)
  lost : List Nat

/-- A program before its first call (pycomps.c:1000 `PyInit__libpycomps`). -/
def start : St := ⟨[], [], [], [], []⟩

/-! ## References -/

/-- Reading an object of the C library. -/
def loadObj (st : St) (a : Nat) : Res Obj :=
  match st.objs[a]? with
  | some (some o) => .ok o
  | _ => .error .useAfterFree

/-- comps_obj.c:7-16 `comps_object_create` for a list or dictionary. -/
def newObj (st : St) (v : DocVal) : Nat × St :=
  (st.objs.length, { st with objs := st.objs ++ [some ⟨0, v⟩] })

/-- comps_obj.c:74-78 `comps_object_incref`. -/
def incObj (st : St) (a : Nat) : Res St := do
  let o ← loadObj st a
  return { st with objs := st.objs.set a (some { o with rc := o.rc + 1 }) }

/-- comps_obj.c:18-26 `comps_object_destroy`: counts down, frees at 0. -/
def decObj (st : St) (a : Nat) : Res St := do
  let o ← loadObj st a
  match o.rc with
  | 0 => return { st with objs := st.objs.set a none }
  | n + 1 => return { st with objs := st.objs.set a (some { o with rc := n }) }

/-- Reading a Python object. -/
def loadWrap (st : St) (w : Nat) : Res Wrap :=
  match st.wraps[w]? with
  | some (some o) => .ok o
  | _ => .error .useAfterFree

/-- A new Python object (`tp_alloc`: reference count 1) around an object of the C library
(pycomps.c:389-393). -/
def newWrap (st : St) (k : Kind) (a : Nat) : Nat × St :=
  (st.wraps.length, { st with wraps := st.wraps ++ [some ⟨1, k, a⟩] })

/-- `Py_INCREF`. -/
def incWrap (st : St) (w : Nat) : Res St := do
  let o ← loadWrap st w
  return { st with wraps := st.wraps.set w (some { o with refs := o.refs + 1 }) }

/-- `Py_DECREF`; at 0 `PyCOMPSSeq_dealloc` (pycomps_sequence.c:532-536), `PyCOMPSDict_dealloc`
(pycomps_dict.c:45-49) or `PyCOMPSMDict_dealloc` (pycomps_mdict.c:49-53). -/
def decWrap (st : St) (w : Nat) : Res St := do
  let o ← loadWrap st w
  if o.refs ≤ 1 then decObj { st with wraps := st.wraps.set w none } o.obj
  else return { st with wraps := st.wraps.set w (some { o with refs := o.refs - 1 }) }

/-- A field of a structure that is an array here. -/
def upd {α : Type} (f : Sec → α) (s : Sec) (v : α) : Sec → α := fun t => if t = s then v else f t

/-- Writing the fields of a `Comps` object. -/
def putDoc (st : St) (c : Nat) (d : PyDoc) : St := { st with docs := st.docs.set c (some d) }

/-- A new variable of the program. -/
def pushVar (st : St) (w : Nat) : St := { st with vars := st.vars ++ [some w] }

/-- comps_obj.c:18-26 on each of several objects, NULL included. -/
def decObjs (st : St) : List (Option Nat) → Res St
  | [] => .ok st
  | none :: as => decObjs st as
  | some a :: as => do decObjs (← decObj st a) as

/-- `Py_CLEAR`, `Py_XDECREF` on each of several objects, NULL included. -/
def decWraps (st : St) : List (Option Nat) → Res St
  | [] => .ok st
  | none :: ws => decWraps st ws
  | some w :: ws => do decWraps (← decWrap st w) ws

/-! ## Attributes -/

/-- comps_doc.h:44-54, 72-82, 88-98: `comps_doc_groups` and the like.  A new list is stored
(`set_x`, no new reference), then counted for the caller. -/
def docGet (st : St) (c : Nat) (d : PyDoc) (s : Sec) : Res (Nat × PyDoc × St) :=
  match d.secs s with
  | some a => do return (a, d, ← incObj st a)
  | none => do
    let (a, st) := newObj st s.kind.empty
    let d := { d with secs := upd d.secs s (some a) }
    return (a, d, ← incObj (putDoc st c d) a)

/-- pycomps.c:382-402 `PyCOMPS_get_`; the result is bound to a new variable. -/
def getAttr (st : St) (c : Nat) (d : PyDoc) (s : Sec) : Res St :=
  match d.cache s with
  | some w => do return pushVar (← incWrap st w) w
  | none => do
    let (a, d, st) ← docGet st c d s
    let (w, st) := newWrap st s.kind a
    let st := putDoc st c { d with cache := upd d.cache s (some w) }
    return pushVar (← incWrap st w) w

/-- comps_doc.h:61-65, 104-108, 115-119 `comps_doc_set_groups` and the like: `comps_objrtree_set`
(comps_objradix.c:450-452) counts the new value, then the old one is destroyed and replaced (388-391).
Here and below a field is written before the object it pointed to is released, where the C code does it
the other way round; nothing looks at the field in between. -/
def docSet (st : St) (c : Nat) (d : PyDoc) (s : Sec) (a : Nat) : Res (PyDoc × St) := do
  let st ← incObj st a
  let d' := { d with secs := upd d.secs s (some a) }
  return (d', ← decObjs (putDoc st c d') [d.secs s])

/-- pycomps.c:447-465 `PyCOMPS_set_`, for a value of the right type. -/
def setAttr (st : St) (c : Nat) (d : PyDoc) (s : Sec) (w : Nat) : Res St := do
  let d' := { d with cache := upd d.cache s none }
  let st ← decWraps (putDoc st c d') [d.cache s]
  let o ← loadWrap st w
  let (d, st) ← docSet st c d' s o.obj
  let st ← incWrap st w
  return putDoc st c { d with cache := upd d.cache s (some w) }

/-! ## Contents -/

/-- What a document shows: its four strings and its six lists and dictionaries. -/
structure Content where
  encoding : Option CStr
  doctypeName : Option CStr
  doctypeSysid : Option CStr
  doctypePubid : Option CStr
  part : Sec → DocVal

/-- The document as in `Verif/Model/Doc.lean`, with `doc->objects` holding the six parts.  The order
in which they were stored does not matter to the getters (C01, C03). -/
def Content.toDoc (lt : UInt8 → UInt8 → Bool) (x : Content) : Doc :=
  ⟨allSecs.foldl (fun t s => t.set lt s.key (some (x.part s))) RTree.create, x.encoding,
    x.doctypeName, x.doctypeSysid, x.doctypePubid, true, true⟩

/-- What is found in `doc->objects` when all of it is read; a list that is not there reads as an
empty one (comps_doc.h:48-52: it is created). -/
def readParts (st : St) (d : PyDoc) : List Sec → Res (Sec → DocVal)
  | [] => .ok fun s => s.kind.empty
  | s :: ss => do
    let f ← readParts st d ss
    match d.secs s with
    | none => return f
    | some a => do
      let o ← loadObj st a
      return upd f s o.val

/-- The content of a document as the functions of the C library see it through the getters. -/
def content (st : St) (d : PyDoc) : Res Content := do
  return ⟨d.encoding, d.doctypeName, d.doctypeSysid, d.doctypePubid, ← readParts st d allSecs⟩

/-- The lists and dictionaries of a document made by the C library become objects here.  A document
with an object of the wrong type under one of its keys would be a fault at the first use of it. -/
def adoptSecs (d : Doc) (st : St) : List Sec → Res ((Sec → Option Nat) × St)
  | [] => .ok (fun _ => none, st)
  | s :: ss => do
    let (f, st) ← adoptSecs d st ss
    match d.objects.get s.key with
    | none => return (f, st)
    | some v =>
      if kindOf v = some s.kind then
        let (a, st) := newObj st v
        return (upd f s (some a), st)
      else .error .typeConfusion

/-- pycomps.c:257-270, 359-376, 538-542, 860-863: a document made by the C library becomes the
document of a `Comps` object. -/
def adopt (st : St) (d : Doc) (log : List LogEntry) : Res (PyDoc × St) := do
  let (f, st) ← adoptSecs d st allSecs
  return (⟨f, fun _ => none, d.encoding, d.doctypeName, d.doctypeSysid, d.doctypePubid, log⟩, st)

/-! ## Methods -/

/-- How a call fails. -/
inductive Exc where
  | typeError
  | ioError
  | parserError
  /-- `ValueError` of `validate`, with the message -/
  | valueError (msg : Bytes)
  /-- an exception is set and a result returned: Python raises `SystemError` -/
  | systemError
  /-- no such variable, or one that was deleted -/
  | nameError

/-- What a call answers. -/
inductive Ans where
  | done
  | exc (e : Exc)
  /-- a new variable with a list or dictionary -/
  | view
  /-- a new `Comps` object -/
  | comps
  | value (v : DocVal)
  | content (x : Content)
  | bool (b : Bool)
  | num (n : Int)
  | log (l : List LogEntry)
  | msgs (l : List Bytes)
  /-- a string of XML, by the calls of the libxml2 writer that produce it -/
  | xml (calls : List (Call × Bool))

/-- Calls of the Python interface.  A `Comps` object is given by its number, a list or dictionary by
the number of the variable that holds it. -/
inductive Op where
  /-- `Comps()`, `Comps(enc)` -/
  | new (enc : Bytes)
  /-- `v = c.groups` and the like -/
  | get (c : Nat) (s : Sec)
  /-- `c.groups = v` and the like -/
  | set (c : Nat) (s : Sec) (v : Nat)
  /-- `del c.groups` and the like -/
  | delAttr (c : Nat) (s : Sec)
  /-- `GroupList()` and the like -/
  | make (k : Kind)
  /-- any calls on the list or dictionary in `v` that leave it with the value `x` -/
  | write (v : Nat) (x : DocVal)
  /-- looking at all of the list or dictionary in `v` -/
  | read (v : Nat)
  /-- looking at all of the document, as the functions of the C library see it -/
  | dump (c : Nat)
  | clear (c : Nat)
  | fromStr (c : Nat) (cx : Ctx) (text : Chunk)
  /-- `none`: the file cannot be opened -/
  | fromFile (c : Nat) (cx : Ctx) (file : Option (List Chunk))
  /-- `c1 + c2` -/
  | union (c1 c2 : Nat)
  | archFilter (c : Nat) (arches : List CStr)
  /-- `c == x`; `none`: `x` is not a `Comps` object -/
  | eq (c : Nat) (x : Option Nat)
  | validate (c : Nat)
  | validateNf (c : Nat)
  /-- `fails` tells which calls of the libxml2 writer fail -/
  | xmlStr (c : Nat) (o : Option Options) (df : Option Defaults) (fails : Nat → Bool)
  /-- `saved`: the file could be written -/
  | xmlFile (c : Nat) (name : Bytes) (o : Option Options) (df : Option Defaults) (fails : Nat → Bool)
      (saved : Bool)
  /-- `get_last_log()` -/
  | lastLog (c : Nat)
  /-- `del v` -/
  | del (v : Nat)
  /-- `del c` -/
  | drop (c : Nat)

/-- pycomps.c:818-844 `PyCOMPS_new`, `PyCOMPS_init`; comps_doc.c:33-46. -/
def freshDoc (enc : Option CStr) : PyDoc :=
  ⟨fun _ => none, fun _ => none, enc, some (compsStr (some Doc.defaultName)),
    some (compsStr (some Doc.defaultSysid)), some (compsStr (some Doc.defaultPubid)), []⟩

/-- pycomps.c:201-211 `PyCOMPS_clear`: the document is replaced, the six fields `p_groups` ... stay. -/
def clear (st : St) (c : Nat) (d : PyDoc) : Res St :=
  decObjs (putDoc st c { freshDoc d.encoding with cache := d.cache }) (allSecs.map d.secs)

/-- pycomps.c:245-272, 350-377: the fields `p_groups` ... are cleared, the document destroyed and
replaced by the one read; an empty one if the parser made none. -/
def replace (st : St) (c : Nat) (d : PyDoc) (p : Parsed) : Res St := do
  let st ← decWraps (putDoc st c { d with cache := fun _ => none }) (allSecs.map d.cache)
  let st ← decObjs (putDoc st c (freshDoc d.encoding)) (allSecs.map d.secs)
  match p.doc with
  | .null => return putDoc st c { freshDoc (some (compsStr (some b!"UTF-8"))) with log := p.log }
  | .live x => do
    let (d', st) ← adopt st x p.log
    return putDoc st c d'
  | .freed => .error .useAfterFree

/-- pycomps.c:327-380 `PyCOMPS_fromxml_str`: a fatal error leaves the object alone. -/
def fromStr (st : St) (c : Nat) (d : PyDoc) (cx : Ctx) (text : Chunk) : Res (Ans × St) := do
  let (ret, p) ← parseStr cx (init (some b!"UTF-8")) text
  if ret = -1 then return (.exc .parserError, st)
  else return (.num ret, ← replace st c d p)

/-- pycomps.c:213-278 `PyCOMPS_fromxml_f`: the document is replaced whatever the result. -/
def fromFile (st : St) (c : Nat) (d : PyDoc) (cx : Ctx) (file : Option (List Chunk)) :
    Res (Ans × St) :=
  match file with
  | none => .ok (.exc .ioError, st)
  | some cs => do
    let (ret, p) ← parseFile cx (init (some b!"UTF-8")) (some cs)
    let st ← replace st c d p
    return (if ret = -1 then .exc .parserError else .num ret, st)

/-- pycomps.c:809-816 `PyCOMPS_dealloc`: three of the six fields are released; the references in the
other three are lost. -/
def dealloc (st : St) (c : Nat) (d : PyDoc) : Res St := do
  let lost := [d.cache .langpacks, d.cache .blacklist, d.cache .whiteout].filterMap id
  let st ← decWraps { st with docs := st.docs.set c (some { d with cache := fun _ => none })
                              lost := st.lost ++ lost }
    [d.cache .groups, d.cache .categories, d.cache .environments]
  decObjs { st with docs := st.docs.set c none } (allSecs.map d.secs)

/-- A new `Comps` object around a document made by the C library (pycomps.c:534-543, 858-863). -/
def wrapDoc (st : St) (x : Doc) : Res (Ans × St) := do
  let (d, st) ← adopt st x []
  return (.comps, { st with docs := st.docs ++ [some d] })

/-- pycomps.c:612-627 `PyCOMPS_validate`: `err_list->first` is read without a check. -/
def validateAns : Val.ValRes Val.VObj → Res Ans
  | .ok => .ok .done
  | .err [] => .error .nullDeref
  | .err (e :: _) => .ok (.exc (.valueError e.msg))

/-- pycomps.c:629-648 `PyCOMPS_validate_nf`. -/
def validateNfAns : Val.ValRes Val.VObj → Ans
  | .ok => .msgs []
  | .err es => .msgs (es.map (·.msg))

/-- pycomps.c:173-195 `PyCOMPS_toxml_str`: the text, and what is added to the log.
Simplification: the text is never NULL (comps_doc.c:256-262). -/
def xmlStr (lt : UInt8 → UInt8 → Bool) (x : Content) (o : Option Options) (df : Option Defaults)
    (fails : Nat → Bool) : Res (Ans × List LogEntry) := do
  let d := x.toDoc lt
  let (_, w) ← Xml.toStr lt o df d (Xml.start fails d)
  return (.xml w.calls, w.log)

/-- pycomps.c:140-141: `encoding` is set before a file is written. -/
def withEncoding (e : Option CStr) : Option CStr := some (e.getD (compsStr (some b!"UTF-8")))

/-- pycomps.c:123-171 `PyCOMPS_toxml_f`: the answer and the log afterwards; the log is cleared first
(142).  When the result is -1 an exception is set and the list returned all the same (151-153, 170). -/
def xmlFile (lt : UInt8 → UInt8 → Bool) (x : Content) (name : Bytes) (o : Option Options)
    (df : Option Defaults) (fails : Nat → Bool) (saved : Bool) : Res (Ans × List LogEntry) := do
  let d := { x with encoding := withEncoding x.encoding }.toDoc lt
  let (ret, w) ← Xml.toFile lt o df d (Xml.start fails d)
  let log := w.log ++ if saved then [] else [⟨19, [some (.str (compsStr (some name)))]⟩]
  return (if ret = -1 then .exc .systemError else .log log, log)

/-- The `Comps` object with a number. -/
def St.doc (st : St) (c : Nat) : Option PyDoc := (st.docs[c]?).join

/-- The Python object in a variable. -/
def St.var (st : St) (v : Nat) : Option Nat := (st.vars[v]?).join

variable (lt : UInt8 → UInt8 → Bool)

/-- One call.  Each case is the function of pycomps.c named at the definition it uses; `set` with the
type check of lines 450-454, `delAttr` where `Py_TYPE(NULL)` is read (450), `eq` where any object is
taken for a `Comps` object (866-871). -/
def step (st : St) : Op → Res (Ans × St)
  | .new enc => .ok (.comps,
      { st with docs := st.docs ++ [some (freshDoc (some (compsStr (some enc))))] })
  | .get c s =>
    match st.doc c with
    | none => .ok (.exc .nameError, st)
    | some d => do return (.view, ← getAttr st c d s)
  | .set c s v =>
    match st.doc c, st.var v with
    | some d, some w => do
      let o ← loadWrap st w
      if o.kind ≠ s.kind then return (.exc .typeError, st)
      else return (.done, ← setAttr st c d s w)
    | _, _ => .ok (.exc .nameError, st)
  | .delAttr c _ =>
    match st.doc c with
    | none => .ok (.exc .nameError, st)
    | some _ => .error .nullDeref
  | .make k =>
    let (a, st) := newObj st k.empty
    let (w, st) := newWrap st k a
    .ok (.view, pushVar st w)
  | .write v x =>
    match st.var v with
    | none => .ok (.exc .nameError, st)
    | some w => do
      let o ← loadWrap st w
      if kindOf x ≠ some o.kind then return (.exc .typeError, st)
      else
        let b ← loadObj st o.obj
        return (.done, { st with objs := st.objs.set o.obj (some { b with val := x }) })
  | .read v =>
    match st.var v with
    | none => .ok (.exc .nameError, st)
    | some w => do
      let o ← loadWrap st w
      let b ← loadObj st o.obj
      return (.value b.val, st)
  | .dump c =>
    match st.doc c with
    | none => .ok (.exc .nameError, st)
    | some d => do return (.content (← content st d), st)
  | .clear c =>
    match st.doc c with
    | none => .ok (.exc .nameError, st)
    | some d => do return (.done, ← clear st c d)
  | .fromStr c cx text =>
    match st.doc c with
    | none => .ok (.exc .nameError, st)
    | some d => fromStr st c d cx text
  | .fromFile c cx file =>
    match st.doc c with
    | none => .ok (.exc .nameError, st)
    | some d => fromFile st c d cx file
  | .union c1 c2 =>
    match st.doc c1, st.doc c2 with
    | some d1, some d2 => do
      let x1 ← content st d1
      let x2 ← content st d2
      wrapDoc st (← Doc.union lt (x1.toDoc lt) (x2.toDoc lt))
    | _, _ => .ok (.exc .nameError, st)
  | .archFilter c arches =>
    match st.doc c with
    | none => .ok (.exc .nameError, st)
    | some d => do
      let x ← content st d
      wrapDoc st (← Doc.archFilter lt (x.toDoc lt) arches)
  | .eq c x =>
    match st.doc c, x with
    | none, _ => .ok (.exc .nameError, st)
    | some _, none => .error .typeConfusion
    | some d, some c' =>
      match st.doc c' with
      | none => .ok (.exc .nameError, st)
      | some d' => do
        let x ← content st d
        let x' ← content st d'
        return (.bool (← Doc.cmp lt (x.toDoc lt) (x'.toDoc lt)), st)
  | .validate c =>
    match st.doc c with
    | none => .ok (.exc .nameError, st)
    | some d => do
      let x ← content st d
      return (← validateAns (← Val.execute (.doc (x.toDoc lt)) (Val.docRules lt)), st)
  | .validateNf c =>
    match st.doc c with
    | none => .ok (.exc .nameError, st)
    | some d => do
      let x ← content st d
      return (validateNfAns (← Val.execute (.doc (x.toDoc lt)) (Val.docRules lt)), st)
  | .xmlStr c o df fails =>
    match st.doc c with
    | none => .ok (.exc .nameError, st)
    | some d => do
      let (a, l) ← xmlStr lt (← content st d) o df fails
      return (a, putDoc st c { d with log := d.log ++ l })
  | .xmlFile c name o df fails saved =>
    match st.doc c with
    | none => .ok (.exc .nameError, st)
    | some d => do
      let (a, l) ← xmlFile lt (← content st d) name o df fails saved
      return (a, putDoc st c { d with encoding := withEncoding d.encoding, log := l })
  | .lastLog c =>
    match st.doc c with
    | none => .ok (.exc .nameError, st)
    | some d => .ok (.log d.log, st)
  | .del v =>
    match st.var v with
    | none => .ok (.exc .nameError, st)
    | some w => do return (.done, ← decWrap { st with vars := st.vars.set v none } w)
  | .drop c =>
    match st.doc c with
    | none => .ok (.exc .nameError, st)
    | some d => do return (.done, ← dealloc st c d)

/-- A program: the answers of its calls and the state at its end. -/
def run (st : St) : List Op → Res (List Ans × St)
  | [] => .ok ([], st)
  | o :: os => do
    let (a, st) ← step lt st o
    let (as, st) ← run st os
    return (a :: as, st)

end Comps.PyComps
