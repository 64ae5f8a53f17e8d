import Verif.Model.PyComps

/-!
# What a Python program may expect of `libcomps.Comps`

A reference machine in which lists and dictionaries are never freed and there are no reference counts
and no Python objects around them: a variable and a document simply know which list they hold.

The parameter `attr` says which list an attribute such as `c.groups` gives once it has been read or
assigned: `RDoc.part`, the list the document holds, is what a program expects; `RDoc.shown` is the list
given the last time.  Contents, XML text, validation and so on are computed from the value of the
document by the functions of the other models (`Content.toDoc`).
-/

namespace Comps.Spec.PyComps
open Comps Comps.Obj Comps.Xml Comps.Parse Comps.PyComps

/-- A document: which lists it holds, which ones were given as attributes, its strings, its log. -/
structure RDoc where
  part : Sec → Option Nat
  shown : Sec → Option Nat
  encoding : Option CStr
  doctypeName : Option CStr
  doctypeSysid : Option CStr
  doctypePubid : Option CStr
  log : List LogEntry

/-- The lists and dictionaries made so far, the documents, the variables. -/
structure RSt where
  lists : List DocVal
  docs : List (Option RDoc)
  vars : List (Option Nat)

def rstart : RSt := ⟨[], [], []⟩

/-- The value of a list. -/
def RSt.value (st : RSt) (a : Nat) : Res DocVal :=
  match st.lists[a]? with
  | some v => .ok v
  | none => .error .useAfterFree

def RSt.doc (st : RSt) (c : Nat) : Option RDoc := (st.docs[c]?).join
def RSt.var (st : RSt) (v : Nat) : Option Nat := (st.vars[v]?).join

def RSt.put (st : RSt) (c : Nat) (d : RDoc) : RSt := { st with docs := st.docs.set c (some d) }
def RSt.bindVar (st : RSt) (a : Nat) : RSt := { st with vars := st.vars ++ [some a] }
def RSt.newList (st : RSt) (v : DocVal) : RSt := { st with lists := st.lists ++ [v] }

/-- A document without entries. -/
def emptyDoc (enc : Option CStr) : RDoc :=
  ⟨fun _ => none, fun _ => none, enc, some (compsStr (some b!"comps")),
    some (compsStr (some b!"comps.dtd")),
    some (compsStr (some b!"-//Red Hat, Inc.//DTD Comps info//EN")), []⟩

/-- What a document shows. -/
def look (st : RSt) (d : RDoc) : Content :=
  ⟨d.encoding, d.doctypeName, d.doctypeSysid, d.doctypePubid, fun s =>
    match (d.part s).bind (st.lists[·]?) with
    | some v => v
    | none => s.kind.empty⟩

/-- A document that came out of the C library becomes a new document with new lists. -/
def takeParts (x : Doc) (st : RSt) : List Sec → Res ((Sec → Option Nat) × RSt)
  | [] => .ok (fun _ => none, st)
  | s :: ss => do
    let (f, st) ← takeParts x st ss
    match x.objects.get s.key with
    | none => return (f, st)
    | some v =>
      if kindOf v = some s.kind then
        return (fun t => if t = s then some st.lists.length else f t, st.newList v)
      else .error .typeConfusion

def takeDoc (st : RSt) (x : Doc) (log : List LogEntry) : Res (RDoc × RSt) := do
  let (f, st) ← takeParts x st allSecs
  return (⟨f, fun _ => none, x.encoding, x.doctypeName, x.doctypeSysid, x.doctypePubid, log⟩, st)

/-- The document takes over what a parser read. -/
def takeParsed (st : RSt) (c : Nat) (p : Parsed) : Res RSt :=
  match p.doc with
  | .null => .ok (st.put c { emptyDoc (some (compsStr (some b!"UTF-8"))) with log := p.log })
  | .live x => do
    let (d, st) ← takeDoc st x p.log
    return st.put c d
  | .freed => .error .useAfterFree

/-- A new document object. -/
def addDoc (st : RSt) (x : Doc) : Res (Ans × RSt) := do
  let (d, st) ← takeDoc st x []
  return (.comps, { st with docs := st.docs ++ [some d] })

variable (lt : UInt8 → UInt8 → Bool) (attr : RDoc → Sec → Option Nat)

/-- Reading an attribute: the list given before, or else the list of the document, or else a new
empty one. -/
def readAttr (st : RSt) (c : Nat) (d : RDoc) (s : Sec) : RSt :=
  match (attr d s).or (d.part s) with
  | some a => (st.put c { d with shown := fun t => if t = s then some a else d.shown t }).bindVar a
  | none =>
    let a := st.lists.length
    ((st.newList s.kind.empty).put c { d with
      part := fun t => if t = s then some a else d.part t
      shown := fun t => if t = s then some a else d.shown t }).bindVar a

/-- One call. -/
def rstep (st : RSt) : Op → Res (Ans × RSt)
  | .new enc => .ok (.comps,
      { st with docs := st.docs ++ [some (emptyDoc (some (compsStr (some enc))))] })
  | .get c s =>
    match st.doc c with
    | none => .ok (.exc .nameError, st)
    | some d => .ok (.view, readAttr attr st c d s)
  | .set c s v =>
    match st.doc c, st.var v with
    | some d, some a => do
      let x ← st.value a
      if kindOf x ≠ some s.kind then return (.exc .typeError, st)
      else return (.done, st.put c { d with
        part := fun t => if t = s then some a else d.part t
        shown := fun t => if t = s then some a else d.shown t })
    | _, _ => .ok (.exc .nameError, st)
  | .delAttr c _ =>
    match st.doc c with
    | none => .ok (.exc .nameError, st)
    | some _ => .error .nullDeref
  | .make k => .ok (.view, (st.newList k.empty).bindVar st.lists.length)
  | .write v x =>
    match st.var v with
    | none => .ok (.exc .nameError, st)
    | some a => do
      let y ← st.value a
      if kindOf x ≠ kindOf y then return (.exc .typeError, st)
      else return (.done, { st with lists := st.lists.set a x })
  | .read v =>
    match st.var v with
    | none => .ok (.exc .nameError, st)
    | some a => do return (.value (← st.value a), st)
  | .dump c =>
    match st.doc c with
    | none => .ok (.exc .nameError, st)
    | some d => .ok (.content (look st d), st)
  | .clear c =>
    match st.doc c with
    | none => .ok (.exc .nameError, st)
    | some d => .ok (.done, st.put c { emptyDoc d.encoding with shown := d.shown })
  | .fromStr c cx text =>
    match st.doc c with
    | none => .ok (.exc .nameError, st)
    | some _ => do
      let (ret, p) ← parseStr cx (init (some b!"UTF-8")) text
      if ret = -1 then return (.exc .parserError, st)
      else return (.num ret, ← takeParsed st c p)
  | .fromFile c cx file =>
    match st.doc c, file with
    | none, _ => .ok (.exc .nameError, st)
    | some _, none => .ok (.exc .ioError, st)
    | some _, some cs => do
      let (ret, p) ← parseFile cx (init (some b!"UTF-8")) (some cs)
      let st ← takeParsed st c p
      return (if ret = -1 then .exc .parserError else .num ret, st)
  | .union c1 c2 =>
    match st.doc c1, st.doc c2 with
    | some d1, some d2 => do
      addDoc st (← Doc.union lt ((look st d1).toDoc lt) ((look st d2).toDoc lt))
    | _, _ => .ok (.exc .nameError, st)
  | .archFilter c arches =>
    match st.doc c with
    | none => .ok (.exc .nameError, st)
    | some d => do addDoc st (← Doc.archFilter lt ((look st d).toDoc lt) arches)
  | .eq c x =>
    match st.doc c, x with
    | none, _ => .ok (.exc .nameError, st)
    | some _, none => .error .typeConfusion
    | some d, some c' =>
      match st.doc c' with
      | none => .ok (.exc .nameError, st)
      | some d' => do
        return (.bool (← Doc.cmp lt ((look st d).toDoc lt) ((look st d').toDoc lt)), st)
  | .validate c =>
    match st.doc c with
    | none => .ok (.exc .nameError, st)
    | some d => do
      return (← validateAns (← Val.execute (.doc ((look st d).toDoc lt)) (Val.docRules lt)), st)
  | .validateNf c =>
    match st.doc c with
    | none => .ok (.exc .nameError, st)
    | some d => do
      return (validateNfAns (← Val.execute (.doc ((look st d).toDoc lt)) (Val.docRules lt)), st)
  | .xmlStr c o df fails =>
    match st.doc c with
    | none => .ok (.exc .nameError, st)
    | some d => do
      let (a, l) ← xmlStr lt (look st d) o df fails
      return (a, st.put c { d with log := d.log ++ l })
  | .xmlFile c name o df fails saved =>
    match st.doc c with
    | none => .ok (.exc .nameError, st)
    | some d => do
      let (a, l) ← xmlFile lt (look st d) name o df fails saved
      return (a, st.put c { d with encoding := withEncoding d.encoding, log := l })
  | .lastLog c =>
    match st.doc c with
    | none => .ok (.exc .nameError, st)
    | some d => .ok (.log d.log, st)
  | .del v =>
    match st.var v with
    | none => .ok (.exc .nameError, st)
    | some _ => .ok (.done, { st with vars := st.vars.set v none })
  | .drop c =>
    match st.doc c with
    | none => .ok (.exc .nameError, st)
    | some _ => .ok (.done, { st with docs := st.docs.set c none })

/-- A program. -/
def rrun (st : RSt) : List Op → Res (List Ans × RSt)
  | [] => .ok ([], st)
  | o :: os => do
    let (a, st) ← rstep lt attr st o
    let (as, st) ← rrun st os
    return (a :: as, st)

/-! ## Programs and contents -/

/-- What a call would answer now. -/
def answer (lt : UInt8 → UInt8 → Bool) (st : PyComps.St) (o : Op) : Res Ans := (step lt st o).map (·.1)

/-- What the calls of a program would answer now. -/
def answers (lt : UInt8 → UInt8 → Bool) (st : PyComps.St) (os : List Op) : Res (List Ans) :=
  (run lt st os).map (·.1)

/-- `clear()` is only called on documents of which no attribute has been read or assigned; `touched`
are the documents of which one has. -/
def clearsFirst (touched : List Nat) : List Op → Bool
  | [] => true
  | .get c _ :: os => clearsFirst (c :: touched) os
  | .set c _ _ :: os => clearsFirst (c :: touched) os
  | .clear c :: os => !touched.contains c && clearsFirst touched os
  | _ :: os => clearsFirst touched os

/-- No attribute is assigned. -/
def noAssign : Op → Bool
  | .set .. => false
  | _ => true

/-- No `langpacks`, `blacklist` or `whiteout` is read or assigned as attribute. -/
def threeOnly : Op → Bool
  | .get _ s | .set _ s _ => s = .groups || s = .categories || s = .environments
  | _ => true

/-- Calls that only handle attributes, lists and documents as such. -/
def plain : Op → Bool
  | .new _ | .get .. | .set .. | .make _ | .write .. | .read _ | .dump _ | .clear _ | .lastLog _
  | .del _ | .drop _ => true
  | _ => false

/-- Calls that are meant to look only. -/
def looking : Op → Bool
  | .read _ | .dump _ | .eq .. | .validate _ | .validateNf _ | .lastLog _ | .union .. | .archFilter ..
  | .xmlStr .. => true
  | _ => false

/-- The content of a new document. -/
def emptyContent (enc : Option CStr) : Content :=
  ⟨enc, some (compsStr (some b!"comps")), some (compsStr (some b!"comps.dtd")),
    some (compsStr (some b!"-//Red Hat, Inc.//DTD Comps info//EN")), fun s => s.kind.empty⟩

/-- The content of a document of the C library. -/
def contentOf (x : Doc) : Content :=
  ⟨x.encoding, x.doctypeName, x.doctypeSysid, x.doctypePubid, fun s =>
    match x.objects.get s.key with
    | some v => v
    | none => s.kind.empty⟩

/-- The content that a parser read. -/
def parsedContent (p : Parsed) : Content :=
  match p.doc with
  | .live x => contentOf x
  | _ => emptyContent (some (compsStr (some b!"UTF-8")))

/-- One part of the content of a document, as `dump` answers it. -/
def partIn (s : Sec) : Ans → Option DocVal
  | .content x => some (x.part s)
  | _ => none

end Comps.Spec.PyComps
