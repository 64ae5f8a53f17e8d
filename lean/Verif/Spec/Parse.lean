import Verif.Spec.Doc
import Verif.Spec.FMap
import Verif.Model.Parse

/-!
# What a comps file says, read from its tree of elements

The file is a tree of elements and pieces of text.  `readDoc` gives the content of the document and
the codes of the messages.  It is written from the file format: no element stack, no text buffer, no
document pointer.  From the model only the types of objects and of handler calls are used, and the
API operations on objects (dictionary writes, adding entries), whose meaning is the subject of other
properties.
-/

namespace Comps.Spec
open Comps Comps.Obj Comps.Text
open Comps.Xml (Defaults)
open Comps.Parse (Pos Event)

/-- A piece of a file: an element with its attributes and content, with the positions of its start
and end tags, or a piece of text as the XML reader delivers it. -/
inductive XNode where
  | elem (p : Pos) (name : Bytes) (attrs : List (Bytes × Bytes)) (kids : List XNode) (q : Pos)
  | text (p : Pos) (s : Bytes)

mutual
/-- The handler calls for a piece of a file. -/
def XNode.events : XNode → List (Pos × Event)
  | .elem p n attrs kids q => (p, .start n attrs) :: (eventsOf kids ++ [(q, .stop n)])
  | .text p s => [(p, .text s)]
/-- The handler calls for several pieces. -/
def eventsOf : List XNode → List (Pos × Event)
  | [] => []
  | k :: ks => k.events ++ eventsOf ks
end

/-- Is the text white space only (tab, newline, vertical tab, form feed, return, space)? -/
def White (s : Bytes) : Bool := s.all fun c => [9, 10, 11, 12, 13, 32].contains c

/-- Value of an attribute. -/
def attrOf (attrs : List (Bytes × Bytes)) (k : Bytes) : Option Bytes :=
  (attrs.find? fun a => a.1 == k).map (·.2)

/-- Attribute names are not empty and differ, and none is a proper prefix of one before it. -/
structure AttrsOk (attrs : List (Bytes × Bytes)) : Prop where
  ne : ∀ a ∈ attrs, a.1 ≠ []
  order : attrs.Pairwise fun a b => a.1 ≠ b.1 ∧ ¬ ProperPrefix b.1 a.1

/-- Items separated by spaces (32) and commas (44). -/
def words (s : Bytes) : List Bytes :=
  let r := s.foldl (fun (r : List Bytes × Bytes) c =>
    if c == 32 || c == 44 then (if r.2.isEmpty then r else (r.1 ++ [r.2], []))
    else (r.1, r.2 ++ [c])) ([], [])
  if r.2.isEmpty then r.1 else r.1 ++ [r.2]

/-- The attributes an element may have.  `extra` are names accepted on `<name>` and `<description>`
besides (none, if the memory behind the tables is zero). -/
def knownAttrs (extra : Bytes → List Bytes) (n : Bytes) : List Bytes :=
  if n = b!"group" ∨ n = b!"category" ∨ n = b!"environment" then [b!"arch"]
  else if n = b!"name" ∨ n = b!"description" then b!"xml:lang" :: extra n
  else if n = b!"packagereq" then [b!"requires", b!"type", b!"basearchonly", b!"arch"]
  else if n = b!"groupid" then [b!"default", b!"arch"]
  else if n = b!"match" then [b!"name", b!"install"]
  else if n = b!"package" then [b!"name", b!"arch"]
  else if n = b!"ignoredep" then [b!"requires", b!"package"]
  else []

/-- What the reading depends on besides the file: the order of `char`, the default options, the extra
attribute names, and how attributes are looked up and listed. -/
structure Reading where
  lt : UInt8 → UInt8 → Bool
  opts : Defaults
  extra : Bytes → List Bytes
  look : List (Bytes × Bytes) → Bytes → Option Bytes
  names : List (Bytes × Bytes) → List Bytes

/-- Attributes are what the file says. -/
def Reading.plain (lt : UInt8 → UInt8 → Bool) (opts : Defaults) (extra : Bytes → List Bytes) :
    Reading :=
  ⟨lt, opts, extra, attrOf, fun attrs => attrs.map (·.1)⟩

/-- The parser's view of the same. -/
def Reading.ctx (r : Reading) : Comps.Parse.Ctx :=
  ⟨r.lt, r.opts, some (r.extra b!"name"), some (r.extra b!"description")⟩

/-- One message 27 for each unknown attribute. -/
def attrCodes (r : Reading) (n : Bytes) (attrs : List (Bytes × Bytes)) : List Nat :=
  ((r.names attrs).filter fun a => !(knownAttrs r.extra n).contains a).map fun _ => 27

/-- The architectures an `arch` attribute lists. -/
def archesIn (r : Reading) (attrs : List (Bytes × Bytes)) : Option (List CStr) :=
  (r.look attrs b!"arch").map fun s => (words s).map fun w => ⟨some w⟩

/-- Message 23 if there is text where none is expected. -/
def textCode (pend : List Bytes) : List Nat := if pend.isEmpty then [] else [23]

/-- Text counts unless it is white space. -/
def addText (pend : List Bytes) (s : Bytes) : List Bytes := if White s then pend else pend ++ [s]

/-! ## Elements that are not expected -/

mutual
/-- Message codes of one piece below an element whose content is not used, and the text pending
afterwards: the pieces of text since the last element. -/
def stray (r : Reading) : XNode → List Bytes → List Nat × List Bytes
  | .text _ s, pend => ([], addText pend s)
  | .elem _ n attrs kids _, pend =>
    (16 :: (textCode pend ++ attrCodes r n attrs ++ (strays r kids []).1), [])
/-- The same for several pieces. -/
def strays (r : Reading) : List XNode → List Bytes → List Nat × List Bytes
  | [], pend => ([], pend)
  | k :: ks, pend =>
    let a := stray r k pend
    let b := strays r ks a.2
    (a.1 ++ b.1, b.2)
end

/-- The pieces of text an element ends with, joined. -/
def joined (pend : List Bytes) : Option Bytes := if pend.isEmpty then none else some pend.flatten

/-- The pieces of text behind the last child, without the ones that are white space. -/
def lastPieces : List XNode → List Bytes → List Bytes
  | [], pend => pend
  | .text _ s :: ks, pend => lastPieces ks (addText pend s)
  | .elem _ _ _ _ _ :: ks, _ => lastPieces ks []

/-- The text of an element. -/
def ownText (kids : List XNode) : Option Bytes := joined (lastPieces kids [])

/-- An element that holds text: the messages of its content and its text. -/
def leaf (r : Reading) (kids : List XNode) : List Nat × Option Bytes :=
  ((strays r kids []).1, ownText kids)

/-! ## Elements with expected children -/

/-- Reading the content of an element.  `kid` says what an expected child does to the object and which
messages its content and end give; `none` means that the child is not expected. -/
def readAll {σ : Type} (r : Reading)
    (kid : σ → Bytes → List (Bytes × Bytes) → List XNode → Option (σ × List Nat)) :
    σ → List XNode → List Bytes → σ × List Nat × List Bytes
  | x, [], pend => (x, [], pend)
  | x, .text _ s :: ks, pend => readAll r kid x ks (addText pend s)
  | x, .elem p n attrs kids q :: ks, pend =>
    match kid x n attrs kids with
    | some y =>
      let z := readAll r kid y.1 ks []
      (z.1, textCode pend ++ attrCodes r n attrs ++ y.2 ++ z.2.1, z.2.2)
    | none =>
      let z := readAll r kid x ks []
      (z.1, (stray r (.elem p n attrs kids q) pend).1 ++ z.2.1, z.2.2)

/-- The whole content of an element whose own text is not used. -/
def inner {σ : Type} (r : Reading)
    (kid : σ → Bytes → List (Bytes × Bytes) → List XNode → Option (σ × List Nat)) (x : σ)
    (kids : List XNode) (atEnd : σ → List Nat) : σ × List Nat :=
  let z := readAll r kid x kids []
  (z.1, z.2.1 ++ atEnd z.1 ++ textCode z.2.2)

/-- The package type a word stands for. -/
def typeNamed (t : Bytes) : PkgType :=
  if t = b!"default" then .default
  else if t = b!"optional" then .optional
  else if t = b!"conditional" then .conditional
  else if t = b!"mandatory" then .mandatory
  else .unknown

/-- The package of a `<packagereq>` with text `t`. -/
def packageOf (r : Reading) (attrs : List (Bytes × Bytes)) (t : Option Bytes) : Package where
  name := t.map fun b => ⟨some b⟩
  requires := (r.look attrs b!"requires").map fun b => ⟨some b⟩
  basearchonly := if r.look attrs b!"basearchonly" = some b!"true" then some 1 else none
  arches := archesIn r attrs
  type := ((r.look attrs b!"type").map typeNamed).getD r.opts.pkgtype

/-- Children of `<packagelist>`. -/
def packageKid (r : Reading) (l : List Package) (n : Bytes) (attrs : List (Bytes × Bytes))
    (kids : List XNode) : Option (List Package × List Nat) :=
  if n = b!"packagereq" then
    some (l ++ [packageOf r attrs (leaf r kids).2],
      (leaf r kids).1 ++ if (leaf r kids).2.isNone then [24] else [])
  else none

/-- The group id of a `<groupid>` with text `t`. -/
def groupIdOf (r : Reading) (attrs : List (Bytes × Bytes)) (t : Option Bytes) : GroupId where
  name := some ⟨t⟩
  dflt := r.look attrs b!"default" = some b!"true"
  arches := archesIn r attrs

/-- Children of `<grouplist>` and `<optionlist>`. -/
def idKid (r : Reading) (l : List GroupId) (n : Bytes) (attrs : List (Bytes × Bytes))
    (kids : List XNode) : Option (List GroupId × List Nat) :=
  if n = b!"groupid" then some (l ++ [groupIdOf r attrs (leaf r kids).2], (leaf r kids).1) else none

/-- Message 22 if the list is empty. -/
def emptyCode {α : Type} (l : List α) : List Nat := if l.isEmpty then [22] else []

/-- The dictionaries that groups, categories and environments have in common. -/
structure Texts where
  props : RTree PVal
  names : RTree PVal
  descs : RTree PVal

/-- Message 3 if the property is set already. -/
def againCode (props : RTree PVal) (key : Bytes) : List Nat :=
  if (props.get key).isSome then [3] else []

/-- Store a text property. -/
def putText (r : Reading) (x : Texts) (key b : Bytes) : Texts × List Nat :=
  ({ x with props := x.props.set r.lt key (some (.str ⟨some b⟩)) }, againCode x.props key)

/-- `<id>`, `<name>`, `<description>` with text `t`. -/
def textKid (r : Reading) (x : Texts) (n : Bytes) (attrs : List (Bytes × Bytes)) (t : Option Bytes) :
    Texts × List Nat :=
  match t with
  | none => (x, [24])
  | some b =>
    if n = b!"id" then putText r x b!"id" b
    else if n = b!"name" then
      match r.look attrs b!"xml:lang" with
      | some l => ({ x with names := x.names.set r.lt l (some (.str ⟨some b⟩)) }, [])
      | none => putText r x b!"name" b
    else
      match r.look attrs b!"xml:lang" with
      | some l => ({ x with descs := x.descs.set r.lt l (some (.str ⟨some b⟩)) }, [])
      | none => putText r x b!"desc" b

/-- Value of a sequence of digits. -/
def natValue (l : Bytes) : Nat := l.foldl (fun n c => 10 * n + (c.toNat - 48)) 0

/-- The number a text starts with, after white space: an optional sign and digits. -/
def numberAt (t : Bytes) : Option Int :=
  let t := t.dropWhile fun c => White [c]
  let neg := t.head? == some 45
  let t := if t.head? == some 45 || t.head? == some 43 then t.tail else t
  let ds := t.takeWhile fun c => 48 ≤ c && c ≤ 57
  if ds.isEmpty then none
  else if neg then some (-(natValue ds : Int)) else some (natValue ds)

/-- `<display_order>` with text `b`: a text that is no number leaves the number as it is, 0 if it was
not set. -/
def orderKid (r : Reading) (x : Texts) (t : Option Bytes) : Texts × List Nat :=
  let old := (x.props.get b!"display_order").getD (.num 0)
  let new := match t.bind numberAt with
    | some n => .num n
    | none => old
  ({ x with props := x.props.set r.lt b!"display_order" (some new) },
    againCode x.props b!"display_order")

/-- Children that groups, categories and environments have in common. -/
def fieldKid (r : Reading) (x : Texts) (n : Bytes) (attrs : List (Bytes × Bytes))
    (kids : List XNode) : Option (Texts × List Nat) :=
  if n = b!"id" ∨ n = b!"name" ∨ n = b!"description" then
    let y := textKid r x n attrs (leaf r kids).2
    some (y.1, (leaf r kids).1 ++ y.2)
  else if n = b!"display_order" then
    let y := orderKid r x (leaf r kids).2
    some (y.1, (leaf r kids).1 ++ y.2)
  else none

/-- The property and the value a flag element with text `t` sets. -/
def flagValue (t : Option Bytes) : Option Int :=
  if t = some b!"true" then some 1 else if t = some b!"false" then some 0 else none

/-- A flag with text `t`; message 5 if the text is neither "true" nor "false". -/
def flagKid (r : Reading) (props : RTree PVal) (key : Bytes) (t : Option Bytes) :
    RTree PVal × List Nat :=
  match flagValue t with
  | some v => (props.set r.lt key (some (.num v)), [])
  | none => (props, [5])

/-- Properties of a new entry with an `arch` attribute or without. -/
def newProps (r : Reading) (attrs : List (Bytes × Bytes)) : RTree PVal :=
  match archesIn r attrs with
  | some l => RTree.create.set r.lt b!"arches" (some (.list l))
  | none => RTree.create

/-- Message 21 for each missing property. -/
def requiredCodes (props : RTree PVal) : List Nat :=
  ([b!"id", b!"name", b!"desc"].filter fun k => (props.get k).isNone).map fun _ => 21

/-- The flag properties of a group by element name. -/
def flagKey (n : Bytes) : Option Bytes :=
  if n = b!"default" then some b!"def"
  else if n = b!"uservisible" then some b!"uservisible"
  else if n = b!"biarchonly" then some b!"biarchonly"
  else none

/-- Children of `<group>`. -/
def groupKid (r : Reading) (g : Group) (n : Bytes) (attrs : List (Bytes × Bytes))
    (kids : List XNode) : Option (Group × List Nat) :=
  match fieldKid r ⟨g.props, g.nameByLang, g.descByLang⟩ n attrs kids with
  | some y => some (⟨y.1.props, y.1.names, y.1.descs, g.packages⟩, y.2)
  | none =>
    match flagKey n with
    | some key =>
      let y := flagKid r g.props key (leaf r kids).2
      some ({ g with props := y.1 }, (leaf r kids).1 ++ y.2)
    | none =>
      if n = b!"langonly" then
        match (leaf r kids).2 with
        | some b =>
          some ({ g with props := g.props.set r.lt b!"langonly" (some (.str ⟨some b⟩)) },
            (leaf r kids).1 ++ againCode g.props b!"langonly")
        | none => some (g, (leaf r kids).1 ++ againCode g.props b!"langonly")
      else if n = b!"packagelist" then
        let y := inner r (packageKid r) (g.packages.getD []) kids emptyCode
        some ({ g with packages := some y.1 }, y.2)
      else none

/-- A flag that is absent gets its default. -/
def withDefault (r : Reading) (key : Bytes) (b : Bool) (props : RTree PVal) : RTree PVal :=
  if (props.get key).isSome then props
  else props.set r.lt key (some (.num (if b then 1 else 0)))

/-- A group at its end: flags that are absent get their defaults. -/
def endGroup (r : Reading) (g : Group) : Group :=
  let p := withDefault r b!"def" r.opts.dflt g.props
  let p := withDefault r b!"uservisible" r.opts.uservisible p
  { g with props := withDefault r b!"biarchonly" r.opts.biarchonly p }

/-- Children of `<category>`. -/
def categoryKid (r : Reading) (g : Category) (n : Bytes) (attrs : List (Bytes × Bytes))
    (kids : List XNode) : Option (Category × List Nat) :=
  match fieldKid r ⟨g.props, g.nameByLang, g.descByLang⟩ n attrs kids with
  | some y => some (⟨y.1.props, y.1.names, y.1.descs, g.groupIds⟩, y.2)
  | none =>
    if n = b!"grouplist" then
      let y := inner r (idKid r) (g.groupIds.getD []) kids emptyCode
      some ({ g with groupIds := some y.1 }, y.2)
    else none

/-- Children of `<environment>`. -/
def envKid (r : Reading) (g : Env) (n : Bytes) (attrs : List (Bytes × Bytes))
    (kids : List XNode) : Option (Env × List Nat) :=
  match fieldKid r ⟨g.props, g.nameByLang, g.descByLang⟩ n attrs kids with
  | some y => some (⟨y.1.props, y.1.names, y.1.descs, g.groupList, g.optionList⟩, y.2)
  | none =>
    if n = b!"grouplist" then
      let y := inner r (idKid r) (g.groupList.getD []) kids emptyCode
      some ({ g with groupList := some y.1 }, y.2)
    else if n = b!"optionlist" then
      let y := inner r (idKid r) (g.optionList.getD []) kids (fun _ => [])
      some ({ g with optionList := some y.1 }, y.2)
    else none

/-- Children of `<langpacks>`, `<blacklist>`, `<whiteout>`: an element `name` gives a key and a value
in its attributes `k` and `v`; its own text is not used. -/
def pairKid {σ : Type} (r : Reading) (name k v : Bytes) (add : σ → Bytes → CStr → σ) (x : σ) (n : Bytes)
    (attrs : List (Bytes × Bytes)) (kids : List XNode) : Option (σ × List Nat) :=
  if n = name then
    some (match r.look attrs k with
      | some key => add x key ⟨r.look attrs v⟩
      | none => x, (strays r kids []).1 ++ textCode (strays r kids []).2)
  else none

/-- Children of `<langpacks>`. -/
def matchKid (r : Reading) :=
  pairKid r b!"match" b!"name" b!"install" fun (t : RTree PVal) k s => t.set r.lt k (some (.str s))
/-- Children of `<blacklist>`. -/
def blackKid (r : Reading) :=
  pairKid r b!"package" b!"name" b!"arch" fun (t : MTree CStr) k s => MTree.set t k s
/-- Children of `<whiteout>`. -/
def whiteKid (r : Reading) :=
  pairKid r b!"ignoredep" b!"requires" b!"package" fun (t : MTree CStr) k s => MTree.set t k s

/-- Children of `<comps>`. -/
def docKid (r : Reading) (c : DocContent) (n : Bytes) (attrs : List (Bytes × Bytes))
    (kids : List XNode) : Option (DocContent × List Nat) :=
  if n = b!"group" then
    let y := inner r (groupKid r) ⟨newProps r attrs, RTree.create, RTree.create, some []⟩ kids
      (fun g => requiredCodes g.props)
    some ({ c with groups := c.groups ++ [endGroup r y.1] }, y.2)
  else if n = b!"category" then
    let y := inner r (categoryKid r) ⟨newProps r attrs, RTree.create, RTree.create, some []⟩ kids
      (fun g => requiredCodes g.props)
    some ({ c with categories := c.categories ++ [y.1] }, y.2)
  else if n = b!"environment" then
    let y := inner r (envKid r) ⟨newProps r attrs, RTree.create, RTree.create, some [], some []⟩ kids
      (fun g => requiredCodes g.props)
    some ({ c with environments := c.environments ++ [y.1] }, y.2)
  else if n = b!"langpacks" then
    let y := inner r (matchKid r) c.langpacks kids (fun _ => [])
    some ({ c with langpacks := y.1 }, y.2)
  else if n = b!"blacklist" then
    let y := inner r (blackKid r) c.blacklist kids (fun _ => [])
    some ({ c with blacklist := y.1 }, y.2)
  else if n = b!"whiteout" then
    let y := inner r (whiteKid r) c.whiteout kids (fun _ => [])
    some ({ c with whiteout := y.1 }, y.2)
  else none

/-- Nothing. -/
def emptyContent : DocContent := ⟨[], [], [], RTree.create, MTree.create, MTree.create⟩

/-- The document in `<comps attrs> kids </comps>` and the messages. -/
def readDoc (r : Reading) (attrs : List (Bytes × Bytes)) (kids : List XNode) :
    DocContent × List Nat :=
  let y := inner r (docKid r) emptyContent kids (fun _ => [])
  (y.1, attrCodes r b!"comps" attrs ++ y.2)

/-! ## Files that are read safely -/

mutual
/-- No `<comps>` inside, and all attributes as in `A`. -/
def XNode.Tidy (A : List (Bytes × Bytes) → Prop) : XNode → Prop
  | .elem _ n attrs kids _ => n ≠ b!"comps" ∧ A attrs ∧ AllTidy A kids
  | .text _ _ => True
/-- The same for several pieces. -/
def AllTidy (A : List (Bytes × Bytes) → Prop) : List XNode → Prop
  | [] => True
  | k :: ks => k.Tidy A ∧ AllTidy A ks
end

/-- A condition on the child elements called `name`. -/
def Each (name : Bytes) (P : List (Bytes × Bytes) → List XNode → Prop) (l : List XNode) : Prop :=
  ∀ p attrs kids q, XNode.elem p name attrs kids q ∈ l → P attrs kids

/-- `<display_order>` has a text, and a number it starts with fits in an `int`. -/
def OrderSafe (kids : List XNode) : Prop :=
  ∃ b, ownText kids = some b ∧ ∀ v, numberAt b = some v → -2147483648 ≤ v ∧ v ≤ 2147483647

/-- The elements whose handlers are undefined without text have one. -/
structure GroupSafe (kids : List XNode) : Prop where
  order : Each b!"display_order" (fun _ k => OrderSafe k) kids
  uservisible : Each b!"uservisible" (fun _ k => ownText k ≠ none) kids
  biarchonly : Each b!"biarchonly" (fun _ k => ownText k ≠ none) kids

/-- The conditions on the children of `<comps>`: `A` on attributes of all elements, and the presence
(`has`) of the keys of the dictionaries. -/
structure DocSafe (A : List (Bytes × Bytes) → Prop) (has : List (Bytes × Bytes) → Bytes → Prop)
    (kids : List XNode) : Prop where
  tidy : AllTidy A kids
  groups : Each b!"group" (fun _ k => GroupSafe k) kids
  categories : Each b!"category" (fun _ k => Each b!"display_order" (fun _ k => OrderSafe k) k) kids
  environments :
    Each b!"environment" (fun _ k => Each b!"display_order" (fun _ k => OrderSafe k) k) kids
  langpacks : Each b!"langpacks" (fun _ k => Each b!"match" (fun a _ => has a b!"name") k) kids
  blacklist : Each b!"blacklist" (fun _ k => Each b!"package" (fun a _ => has a b!"name") k) kids
  whiteout : Each b!"whiteout" (fun _ k => Each b!"ignoredep" (fun a _ => has a b!"requires") k) kids

/-! ## Places of elements -/

/-- The elements that may stand below an element. -/
def allowedIn (parent : Bytes) : List Bytes :=
  if parent = b!"comps" then
    [b!"group", b!"category", b!"environment", b!"langpacks", b!"blacklist", b!"whiteout"]
  else if parent = b!"group" then
    [b!"id", b!"name", b!"description", b!"display_order", b!"default", b!"uservisible",
      b!"biarchonly", b!"langonly", b!"packagelist"]
  else if parent = b!"category" then
    [b!"id", b!"name", b!"description", b!"display_order", b!"grouplist"]
  else if parent = b!"environment" then
    [b!"id", b!"name", b!"description", b!"display_order", b!"grouplist", b!"optionlist"]
  else if parent = b!"packagelist" then [b!"packagereq"]
  else if parent = b!"grouplist" then [b!"groupid"]
  else if parent = b!"optionlist" then [b!"groupid"]
  else if parent = b!"langpacks" then [b!"match"]
  else if parent = b!"blacklist" then [b!"package"]
  else if parent = b!"whiteout" then [b!"ignoredep"]
  else []

/-- Is the innermost element (the first) of a path allowed at its place?  The elements around it must
be, too.  `<comps>` is the root. -/
def Allowed : List Bytes → Prop
  | [] => False
  | n :: up => (n = b!"comps" ∧ up = []) ∨ (n ∈ up.head?.elim [] allowedIn ∧ Allowed up)

/-- The elements that are open after some calls, innermost first; `none` if the calls are not those of
the beginning of a well-formed file. -/
def openAfter : List Bytes → List (Pos × Event) → Option (List Bytes)
  | path, [] => some path
  | path, (_, .start n _) :: es => openAfter (n :: path) es
  | path, (_, .stop n) :: es =>
    match path with
    | m :: up => if m = n then openAfter up es else none
    | [] => none
  | path, (_, .text _) :: es => openAfter path es
  | path, (_, .doctype _ _ _) :: es => openAfter path es

/-! ## Pieces of text -/

/-- The calls for pieces of text. -/
def pieces (l : List (Pos × Bytes)) : List (Pos × Event) := l.map fun x => (x.1, .text x.2)

/-- The text of pieces, without the pieces that are white space only. -/
def kept (l : List (Pos × Bytes)) : Bytes :=
  ((l.map (·.2)).filter fun c => !White c).flatten

/-- Two sequences of calls that differ only in how text is cut into pieces, where pieces that are
white space only do not count. -/
inductive SameText : List (Pos × Event) → List (Pos × Event) → Prop
  | nil : SameText [] []
  | call (e : Pos × Event) {es es'} : SameText es es' → SameText (e :: es) (e :: es')
  | recut (a b : List (Pos × Bytes)) {es es'} : kept a = kept b → SameText es es' →
    SameText (pieces a ++ es) (pieces b ++ es')

/-- Text that is pending after some calls: the pieces since the last tag that are not white space. -/
def openText (es : List (Pos × Event)) : List Bytes :=
  es.foldl (fun pend e => match e.2 with
    | .start _ _ => []
    | .stop _ => []
    | .text c => addText pend c
    | .doctype _ _ _ => pend) []

/-! ## Flags -/

/-- The last valid value of a flag among the children of a group. -/
def lastFlag (name : Bytes) (kids : List XNode) : Option Int :=
  kids.foldl (fun v k => match k with
    | .elem _ n _ ks _ => if n = name then (flagValue (ownText ks)).or v else v
    | .text _ _ => v) none

/-- The value of a flag of a group: the last valid one, or the default. -/
def flagIn (name : Bytes) (dflt : Bool) (kids : List XNode) : Int :=
  (lastFlag name kids).getD (if dflt then 1 else 0)

/-- The children of the elements with a name. -/
def kidsOf (name : Bytes) (kids : List XNode) : List (List XNode) :=
  kids.filterMap fun
    | .elem _ n _ ks _ => if n = name then some ks else none
    | .text _ _ => none

/-- The attribute is there. -/
def Has (attrs : List (Bytes × Bytes)) (k : Bytes) : Prop := attrOf attrs k ≠ none

/-- The calls for a whole file: a document type, if there is one, and the root element. -/
def fileEvents (dt : Option (Pos × Bytes × Option Bytes × Option Bytes)) (root : XNode) :
    List (Pos × Event) :=
  (match dt with
    | some (p, n, sy, pu) => [(p, .doctype n sy pu)]
    | none => []) ++ root.events

end Comps.Spec
