import Verif.Spec.Xml
import Verif.Spec.Parse

/-!
# Writing and reading back

`Transmits` says what the XML libraries do between the writer and the parser: what was written as a
tree arrives as the same tree, with text cut into pieces and perhaps with white space added between
elements.  `RoundTrips` lists the conditions under which a document survives, `SameContent` says what
surviving means.
-/

namespace Comps.Spec
open Comps Comps.Obj Comps.Text Comps.Xml
open Comps.Parse (Pos Event)

/-- The reader delivers the content of an element as written: elements in order with the same names,
attributes and content, texts in pieces, and perhaps additional white space.  `P` tells how text may
be cut. -/
inductive ReadsAll (P : List Bytes → Prop) : List Tree → List XNode → Prop
  | nil : ReadsAll P [] []
  | white (p : Pos) (s : Bytes) {ts ns} : White s = true → ReadsAll P ts ns →
      ReadsAll P ts (.text p s :: ns)
  | elem (p q : Pos) (n : Bytes) (attrs : List (Bytes × Bytes)) {kids nodes ts ns} :
      ReadsAll P kids nodes → ReadsAll P ts ns →
      ReadsAll P (.elem n attrs kids :: ts) (.elem p n attrs nodes q :: ns)
  | text (l : List (Pos × Bytes)) {ts ns} : P (l.map (·.2)) → ReadsAll P ts ns →
      ReadsAll P (.text (l.map (·.2)).flatten :: ts) (l.map (fun x => .text x.1 x.2) ++ ns)

/-- No piece of text is white space only. -/
def NoBlank (l : List Bytes) : Prop := ∀ s ∈ l, White s = false

/-- What the calls of the writer produced is delivered to the parser as the document type `dt` and the
root element `root`. -/
def Transmits (P : List Bytes → Prop) (calls : List Call)
    (dt : Option (Pos × Bytes × Option Bytes × Option Bytes)) (root : XNode) : Prop :=
  ∃ e p n pubid sysid name attrs kids p1 q1 nodes, calls =
      .startDocument e :: .startDTD (some n) pubid sysid :: .endDTD ::
        ((Tree.elem name attrs kids).calls ++ [.endDocument]) ∧
    dt = some (p, n, sysid, pubid) ∧ root = .elem p1 name attrs nodes q1 ∧ ReadsAll P kids nodes

/-! ## Conditions -/

/-- A string with a text that is not white space only. -/
def Solid (s : CStr) : Prop := ∃ b, s = ⟨some b⟩ ∧ White b = false

/-- Architectures: none, or some and they are written.  Their names hold no separator. -/
def ArchesIn (o : Options) (a : Option (List CStr)) : Prop :=
  a = none ∨ o.archOutput = true ∧ ∃ l : List Bytes, l ≠ [] ∧ a = some (l.map fun w => ⟨some w⟩) ∧
    ∀ w ∈ l, w ≠ [] ∧ (32 : UInt8) ∉ w ∧ (44 : UInt8) ∉ w

/-- Packages that survive. -/
structure PackageIn (o : Options) (p : Package) : Prop where
  name : ∀ s, p.name = some s → Solid s
  requires : ∀ s, p.requires = some s → ∃ b, s = ⟨some b⟩ ∧ b ≠ []
  type : p.type ≠ .unknown
  basearchonly : p.basearchonly = none ∨ p.basearchonly = some 1
  arches : ArchesIn o p.arches

/-- Group ids that survive. -/
structure GroupIdIn (o : Options) (g : GroupId) : Prop where
  name : g.name = some ⟨none⟩ ∨ ∃ s, g.name = some s ∧ Solid s
  arches : ArchesIn o g.arches

/-- Properties that survive: texts that are not blank, display orders from 0 to the largest `int`. -/
structure TextsIn (o : Options) (props names descs : RTree PVal) : Prop where
  strs : ∀ k ∈ [b!"id", b!"name", b!"desc", b!"langonly"], ∀ v, props.get k = some v →
    ∃ s, v = .str s ∧ Solid s
  order : ∀ v, props.get b!"display_order" = some v → ∃ n, v = .num n ∧ 0 ≤ n ∧ n ≤ 2147483647
  arches : ArchesIn o (archesOf props)
  names : ∀ k v, names.get k = some v → ∃ s, v = .str s ∧ Solid s
  descs : ∀ k v, descs.get k = some v → ∃ s, v = .str s ∧ Solid s

/-- Groups that survive: they are written, their flags are set to 0 or 1. -/
structure GroupIn (o : Options) (g : Group) : Prop where
  written : groupShown o g = true
  texts : TextsIn o g.props g.nameByLang g.descByLang
  flags : ∀ k ∈ [b!"def", b!"uservisible", b!"biarchonly"],
    g.props.get k = some (.num 0) ∨ g.props.get k = some (.num 1)
  packages : ∃ l, g.packages = some l ∧ ∀ p ∈ l, PackageIn o p

/-- The properties that categories and environments have. -/
def entryKeys : List Bytes := [b!"id", b!"name", b!"desc", b!"display_order", b!"arches"]

/-- Categories that survive: no properties that only groups have. -/
structure CategoryIn (o : Options) (g : Category) : Prop where
  written : categoryShown o g = true
  texts : TextsIn o g.props g.nameByLang g.descByLang
  keys : ∀ k, g.props.get k ≠ none → k ∈ entryKeys
  groupIds : ∃ l, g.groupIds = some l ∧ ∀ p ∈ l, GroupIdIn o p

/-- Environments that survive. -/
structure EnvIn (o : Options) (g : Env) : Prop where
  written : envShown o g = true
  texts : TextsIn o g.props g.nameByLang g.descByLang
  keys : ∀ k, g.props.get k ≠ none → k ∈ entryKeys
  groupList : ∃ l, g.groupList = some l ∧ ∀ p ∈ l, GroupIdIn o p
  optionList : ∃ l, g.optionList = some l ∧ ∀ p ∈ l, GroupIdIn o p

/-- A multi-dictionary without wrapped lists and without keys that hold nothing. -/
def MultiIn (t : MTree CStr) : Prop :=
  ∀ k vs, MTree.get t k = some vs → vs ≠ [] ∧ ∀ v ∈ vs, ∃ b, v = .one ⟨some b⟩

/-- Documents that survive being written with options `o`. -/
structure RoundTrips (o : Options) (c : DocContent) : Prop where
  groups : ∀ g ∈ c.groups, GroupIn o g
  categories : ∀ g ∈ c.categories, CategoryIn o g
  environments : ∀ g ∈ c.environments, EnvIn o g
  langpacks : ∀ k v, c.langpacks.get k = some v → ∃ b, v = .str ⟨some b⟩
  blacklist : MultiIn c.blacklist
  whiteout : MultiIn c.whiteout

/-- There is an id, a name and a description. -/
def Named (props : RTree PVal) : Prop := ∀ k ∈ [b!"id", b!"name", b!"desc"], props.get k ≠ none

/-- Reading gives no message: all entries are named, packages have names, and no empty list is
written (other than an option list). -/
structure Silent (o : Options) (c : DocContent) : Prop where
  groups : ∀ g ∈ c.groups, Named g.props ∧ (g.packages = some [] → o.emptyPackages = false) ∧
    ∀ p ∈ g.packages.getD [], p.name ≠ none
  categories : ∀ g ∈ c.categories, Named g.props ∧
    (g.groupIds = some [] → o.emptyGrouplist = false)
  environments : ∀ g ∈ c.environments, Named g.props ∧
    (g.groupList = some [] → o.emptyGrouplist = false)

/-! ## The same content -/

/-- The same value under every key. -/
def SameGet (a b : RTree PVal) : Prop := ∀ k, a.get k = b.get k

/-- The same group for all getters. -/
structure SameGroup (a b : Group) : Prop where
  props : SameGet a.props b.props
  names : SameGet a.nameByLang b.nameByLang
  descs : SameGet a.descByLang b.descByLang
  packages : a.packages = b.packages

/-- The same category for all getters. -/
structure SameCategory (a b : Category) : Prop where
  props : SameGet a.props b.props
  names : SameGet a.nameByLang b.nameByLang
  descs : SameGet a.descByLang b.descByLang
  groupIds : a.groupIds = b.groupIds

/-- The same environment for all getters. -/
structure SameEnv (a b : Env) : Prop where
  props : SameGet a.props b.props
  names : SameGet a.nameByLang b.nameByLang
  descs : SameGet a.descByLang b.descByLang
  groupList : a.groupList = b.groupList
  optionList : a.optionList = b.optionList

/-- The same content: the same entries in the same order, and the same values under every key of the
dictionaries. -/
structure SameContent (a b : DocContent) : Prop where
  groups : Alike SameGroup a.groups b.groups
  categories : Alike SameCategory a.categories b.categories
  environments : Alike SameEnv a.environments b.environments
  langpacks : SameGet a.langpacks b.langpacks
  blacklist : ∀ k, MTree.get a.blacklist k = MTree.get b.blacklist k
  whiteout : ∀ k, MTree.get a.whiteout k = MTree.get b.whiteout k

end Comps.Spec
