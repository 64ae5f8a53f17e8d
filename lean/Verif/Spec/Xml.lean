import Verif.Model.Xml
import Verif.Spec.Doc

/-!
# The XML a document stands for

An XML element is a tree.  `docTree` says which tree a document with given content should be written
as; it only uses what the getters return.  `calls` is the order in which a writer must be called to
produce a tree.
-/

namespace Comps.Spec
open Comps Comps.Obj Comps.Text Comps.Xml

/-- XML content. -/
inductive Tree where
  | elem (name : Bytes) (attrs : List (Bytes × Bytes)) (kids : List Tree)
  | text (s : Bytes)

mutual
/-- Calls producing a tree: start tag, attributes, content, end tag. -/
def Tree.calls : Tree → List Call
  | .elem n as ks => .startElement n :: (as.map fun a => .attribute a.1 a.2) ++ treeCalls ks ++
      [.endElement]
  | .text s => [.string s]
/-- Calls producing a sequence of trees. -/
def treeCalls : List Tree → List Call
  | [] => []
  | t :: ts => t.calls ++ treeCalls ts
end

/-- Properly nested sequences of calls. -/
inductive ProperlyNested : List Call → Prop
  | nil : ProperlyNested []
  | text (s rest) : ProperlyNested rest → ProperlyNested (.string s :: rest)
  | elem (n) (as : List (Bytes × Bytes)) (inner rest) : ProperlyNested inner → ProperlyNested rest →
      ProperlyNested (.startElement n :: (as.map fun a => .attribute a.1 a.2) ++ inner ++ .endElement :: rest)

/-- Decimal notation of a number. -/
def decimal (n : Nat) : Bytes := (Nat.toDigits 10 n).map fun c => c.toNat.toUInt8

/-- Text of a string; no string and a string without text give the empty text. -/
def textOf : Option CStr → Bytes
  | some ⟨some s⟩ => s
  | _ => []

/-- Text of a list of texts: `[a, b]`. -/
def listText (l : List Bytes) : Bytes := b!"[" ++ List.intercalate b!", " l ++ b!"]"

/-- Text of a value (numbers are not negative). -/
def valueText : PVal → Bytes
  | .str s => textOf (some s)
  | .num n => decimal n.toNat
  | .list l => listText (l.map fun s => textOf (some s))

mutual
/-- Text of an element of a value list of a multi-dictionary. -/
def mvalueText : MVal CStr → Bytes
  | .one s => textOf (some s)
  | .nested l => listText (mvalueTexts l)
/-- The texts of a value list. -/
def mvalueTexts : List (MVal CStr) → List Bytes
  | [] => []
  | v :: vs => mvalueText v :: mvalueTexts vs
end

/-- `true` and `false`. -/
def boolWord : Bool → Bytes
  | true => b!"true"
  | false => b!"false"

/-- The attribute with the architectures. -/
def archAttr (o : Options) : Option (List CStr) → List (Bytes × Bytes)
  | some (a :: as) =>
    if o.archOutput then
      [(b!"arch", List.intercalate b!" " ((a :: as).map fun s => textOf (some s)))]
    else []
  | _ => []

/-- The word for a package type; an unknown type is written as the default. -/
def typeWord : PkgType → Bytes
  | .optional => b!"optional"
  | .mandatory => b!"mandatory"
  | .conditional => b!"conditional"
  | .default => b!"default"
  | .unknown => b!"default"

/-- A package: architectures, type, requirement (when there is one), base architecture flag. -/
def packageTree (o : Options) (p : Package) : Tree :=
  .elem b!"packagereq"
    (archAttr o p.arches ++ [(b!"type", typeWord p.type)] ++
      (if textOf p.requires = [] then [] else [(b!"requires", textOf p.requires)]) ++
      (if o.baoExplicit then [(b!"basearchonly", boolWord p.basearchonly.isSome)]
        else match p.basearchonly with
          | none => []
          | some n => if n = 0 then [] else [(b!"basearchonly", b!"true")]))
    [.text (textOf p.name)]

/-- A group id. -/
def groupIdTree (o : Options) (g : GroupId) : Tree :=
  .elem b!"groupid"
    (archAttr o g.arches ++
      (if o.gidDefaultExplicit ∨ g.dflt = true then [(b!"default", boolWord g.dflt)] else []))
    [.text (textOf g.name)]

/-- A property, when it has a value. -/
def propTree (tag : Bytes) : Option PVal → List Tree
  | none => []
  | some v => [.elem tag [] [.text (valueText v)]]

/-- The translations of a property. -/
def langTrees (tag : Bytes) (t : RTree PVal) : List Tree :=
  t.pairs.map fun e => .elem tag [(b!"xml:lang", e.1)] [.text (valueText e.2)]

/-- The value of a flag. -/
def flagOf : Option PVal → Option Bool
  | some (.num n) => some (n ≠ 0)
  | _ => none

/-- A flag: written when it differs from the default, or always when that is asked for. -/
def flagTree (tag : Bytes) (expl dflt : Bool) (v : Option PVal) : List Tree :=
  if expl || (flagOf v).getD dflt != dflt then
    [.elem tag [] [.text (boolWord ((flagOf v).getD dflt))]]
  else []

/-- A list element. -/
def listTree (tag : Bytes) (opt : Bool) (items : List Tree) : List Tree :=
  if items ≠ [] ∨ opt = true then [.elem tag [] items] else []

/-- Name and description, with translations, as every kind of entry has them. -/
def textTrees (props nameByLang descByLang : RTree PVal) : List Tree :=
  propTree b!"id" (props.get b!"id") ++ propTree b!"name" (props.get b!"name") ++
    langTrees b!"name" nameByLang ++ propTree b!"description" (props.get b!"desc") ++
    langTrees b!"description" descByLang

/-- A group. -/
def groupTree (o : Options) (d : Defaults) (g : Group) : Tree :=
  .elem b!"group" (archAttr o (archesOf g.props))
    (textTrees g.props g.nameByLang g.descByLang ++
      flagTree b!"default" o.defaultExplicit d.dflt (g.props.get b!"def") ++
      flagTree b!"uservisible" o.uservisibleExplicit d.uservisible (g.props.get b!"uservisible") ++
      flagTree b!"biarchonly" o.biarchonlyExplicit d.biarchonly (g.props.get b!"biarchonly") ++
      propTree b!"display_order" (g.props.get b!"display_order") ++
      propTree b!"langonly" (g.props.get b!"langonly") ++
      listTree b!"packagelist" o.emptyPackages ((g.packages.getD []).map (packageTree o)))

/-- A category. -/
def categoryTree (o : Options) (g : Category) : Tree :=
  .elem b!"category"
    (archAttr o (archesOf g.props))
    (textTrees g.props g.nameByLang g.descByLang ++
      propTree b!"display_order" (g.props.get b!"display_order") ++
      listTree b!"grouplist" o.emptyGrouplist ((g.groupIds.getD []).map (groupIdTree o)))

/-- An environment. -/
def envTree (o : Options) (g : Env) : Tree :=
  .elem b!"environment"
    (archAttr o (archesOf g.props))
    (textTrees g.props g.nameByLang g.descByLang ++
      propTree b!"display_order" (g.props.get b!"display_order") ++
      listTree b!"grouplist" o.emptyGrouplist ((g.groupList.getD []).map (groupIdTree o)) ++
      listTree b!"optionlist" o.emptyOptionlist ((g.optionList.getD []).map (groupIdTree o)))

/-- Is the entry written?  Entries without content are left out unless that is asked for. -/
def groupShown (o : Options) (g : Group) : Bool := o.emptyGroups || (g.packages.getD []) != []
/-- The same for categories. -/
def categoryShown (o : Options) (g : Category) : Bool :=
  o.emptyCategories || (g.groupIds.getD []) != []
/-- The same for environments. -/
def envShown (o : Options) (g : Env) : Bool :=
  o.emptyEnvironments || (g.groupList.getD []) != [] || (g.optionList.getD []) != []

/-- A block of pairs, written when there is one. -/
def blockTree (block tag key value : Bytes) (items : List (Bytes × Bytes)) : List Tree :=
  if items = [] then []
  else [.elem block [] (items.map fun e => .elem tag [(key, e.1), (value, e.2)] [])]

/-- The pairs of a dictionary of language packs. -/
def packItems (t : RTree PVal) : List (Bytes × Bytes) := t.pairs.map fun e => (e.1, valueText e.2)
/-- The pairs of a multi-dictionary, one for each value. -/
def multiItems (t : MTree CStr) : List (Bytes × Bytes) :=
  (MTree.pairs t).flatMap fun e => e.2.map fun v => (e.1, mvalueText v)

/-- The whole document. -/
def docTree (o : Options) (d : Defaults) (c : DocContent) : Tree :=
  .elem b!"comps" []
    ((c.groups.filter (groupShown o)).map (groupTree o d) ++
      (c.categories.filter (categoryShown o)).map (categoryTree o) ++
      (c.environments.filter (envShown o)).map (envTree o) ++
      blockTree b!"langpacks" b!"match" b!"name" b!"install" (packItems c.langpacks) ++
      blockTree b!"blacklist" b!"package" b!"name" b!"arch" (multiItems c.blacklist) ++
      blockTree b!"whiteout" b!"ignoredep" b!"requires" b!"package" (multiItems c.whiteout))

/-- The ids of the entries left out, in order. -/
def leftOut (o : Options) (c : DocContent) : List (Option PVal) :=
  (c.groups.filter fun g => !groupShown o g).map (fun g => g.props.get b!"id") ++
    (c.categories.filter fun g => !categoryShown o g).map (fun g => g.props.get b!"id") ++
    (c.environments.filter fun g => !envShown o g).map (fun g => g.props.get b!"id")

/-- The lists of the entries exist and the display orders are not negative. -/
structure Writable (c : DocContent) : Prop where
  groups : ∀ g ∈ c.groups, g.packages.isSome = true ∧
    ∀ n, g.props.get b!"display_order" = some (.num n) → 0 ≤ n
  categories : ∀ g ∈ c.categories, g.groupIds.isSome = true ∧
    ∀ n, g.props.get b!"display_order" = some (.num n) → 0 ≤ n
  environments : ∀ g ∈ c.environments, g.groupList.isSome = true ∧ g.optionList.isSome = true ∧
    ∀ n, g.props.get b!"display_order" = some (.num n) → 0 ≤ n

/-- The counters of the three dictionaries tell whether there is something in them (C07, C10: not so
after copying). -/
structure Counted (c : DocContent) : Prop where
  langpacks : c.langpacks.len = 0 ↔ packItems c.langpacks = []
  blacklist : c.blacklist.len = 0 ↔ multiItems c.blacklist = []
  whiteout : c.whiteout.len = 0 ↔ multiItems c.whiteout = []

/-- The text of the encoding, UTF-8 when there is none. -/
def encodingText (d : Doc) : Bytes := match d.encoding with
  | none => b!"UTF-8"
  | some e => textOf (some e)

/-- The calls for the document type. -/
def doctypeCalls (d : Doc) : List Call :=
  [.startDTD (d.doctypeName.bind (·.val)) (d.doctypePubid.bind (·.val)) (d.doctypeSysid.bind (·.val)),
    .endDTD]

/-- The document type can be written: there is a name, and no public identifier without a system
identifier. -/
structure DoctypeOk (d : Doc) : Prop where
  name : ∃ n, d.doctypeName = some ⟨some n⟩ ∧ n ≠ []
  pubid : ∃ p, d.doctypePubid = some p
  sysid : ∃ p, d.doctypeSysid = some p
  both : ∀ p, d.doctypePubid = some ⟨some p⟩ → d.doctypeSysid ≠ some ⟨none⟩

/-- The calls for a whole document: the first line, the document type, the root element. -/
def docCalls (o : Options) (df : Defaults) (d : Doc) (c : DocContent) : List Call :=
  .startDocument (encodingText d) :: doctypeCalls d ++ (docTree o df c).calls ++ [.endDocument]

/-- Language packs, black list and whiteout are the result of writes only. -/
structure OnlyWrites (lt : UInt8 → UInt8 → Bool) (c : DocContent) : Prop where
  langpacks : ∃ ws : List (Bytes × CStr), c.langpacks =
    ws.foldl (fun t w => t.set lt w.1 (some (.str w.2))) RTree.create
  blacklist : ∃ ws : List (Bytes × CStr), c.blacklist =
    ws.foldl (fun t w => MTree.set t w.1 w.2) MTree.create
  whiteout : ∃ ws : List (Bytes × CStr), c.whiteout =
    ws.foldl (fun t w => MTree.set t w.1 w.2) MTree.create

end Comps.Spec
