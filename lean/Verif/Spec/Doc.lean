import Verif.Model.Doc
import Verif.Spec.Built
import Verif.Spec.MDict

/-!
# Documents reachable through the API, and what queries should return

Only the API functions and the types of their results are taken from the model.
-/

namespace Comps.Spec
open Comps Comps.Obj

/-- Dictionaries of language packs reachable through the API (without removal of entries). -/
inductive LangBuilt (lt : UInt8 → UInt8 → Bool) : RTree PVal → Prop
  | create : LangBuilt lt RTree.create
  | set {t} (k : Bytes) (s : CStr) : LangBuilt lt t → LangBuilt lt (t.set lt k (some (.str s)))
  | copy {t} : LangBuilt lt t → LangBuilt lt (t.copy PVal.copy)
  | union {t t'} : LangBuilt lt t → LangBuilt lt t' → LangBuilt lt (t.union lt PVal.copy t')

/-- Calls on a document that change it (the getters may create an empty list). -/
inductive DocCall where
  | getGroups | getCategories | getEnvironments | getLangpacks | getBlacklist | getWhiteout
  | setGroups (l : Option (List Group))
  | setCategories (l : Option (List Category))
  | setEnvironments (l : Option (List Env))
  | setLangpacks (t : Option (RTree PVal))
  | setBlacklist (t : Option (MTree CStr))
  | setWhiteout (t : Option (MTree CStr))
  | addGroup (g : Group)
  | addCategory (c : Category)
  | addEnvironment (e : Env)
  | addLangpack (k : Bytes) (s : CStr)
  | addBlacklist (k : Bytes) (s : CStr)
  | addWhiteout (k : Bytes) (s : CStr)
  | doctypeName (s : Option CStr)
  | doctypeSysid (s : Option CStr)
  | doctypePubid (s : Option CStr)

/-- Effect of a call. -/
def DocCall.run (lt : UInt8 → UInt8 → Bool) (d : Doc) : DocCall → Res Doc
  | .getGroups => (·.2) <$> d.getObj lt groupsSlot
  | .getCategories => (·.2) <$> d.getObj lt categoriesSlot
  | .getEnvironments => (·.2) <$> d.getObj lt environmentsSlot
  | .getLangpacks => (·.2) <$> d.getObj lt langpacksSlot
  | .getBlacklist => (·.2) <$> d.getObj lt blacklistSlot
  | .getWhiteout => (·.2) <$> d.getObj lt whiteoutSlot
  | .setGroups l => .ok (d.setObj lt groupsSlot l)
  | .setCategories l => .ok (d.setObj lt categoriesSlot l)
  | .setEnvironments l => .ok (d.setObj lt environmentsSlot l)
  | .setLangpacks l => .ok (d.setObj lt langpacksSlot l)
  | .setBlacklist l => .ok (d.setObj lt blacklistSlot l)
  | .setWhiteout l => .ok (d.setObj lt whiteoutSlot l)
  | .addGroup g => d.addGroup lt g
  | .addCategory c => d.addCategory lt c
  | .addEnvironment e => d.addEnvironment lt e
  | .addLangpack k s => d.addLangpack lt k s
  | .addBlacklist k s => d.addBlacklist lt k s
  | .addWhiteout k s => d.addWhiteout lt k s
  | .doctypeName s => .ok (d.setDoctypeName s)
  | .doctypeSysid s => .ok (d.setDoctypeSysid s)
  | .doctypePubid s => .ok (d.setDoctypePubid s)

/-- The objects handed to the call are themselves reachable through the API. -/
def DocCall.Good (lt : UInt8 → UInt8 → Bool) : DocCall → Prop
  | .setGroups l => ∀ g ∈ l.getD [], GroupBuilt lt g
  | .setCategories l => ∀ g ∈ l.getD [], CategoryBuilt lt g
  | .setEnvironments l => ∀ g ∈ l.getD [], EnvBuilt lt g
  | .setLangpacks t => ∀ x, t = some x → LangBuilt lt x
  | .setBlacklist t => ∀ x, t = some x → MReach x
  | .setWhiteout t => ∀ x, t = some x → MReach x
  | .addGroup g => GroupBuilt lt g
  | .addCategory c => CategoryBuilt lt c
  | .addEnvironment e => EnvBuilt lt e
  | _ => True

/-- Documents reachable through the API, including the parser, which stores the document type of a
file in the document (comps_parse.c:178-200).  `comps_doc_set_lang` may only be called on a new document
(see C56). -/
inductive DocBuilt (lt : UInt8 → UInt8 → Bool) : Doc → Prop
  | create {d} (args : Option (Option CStr)) : Doc.create args = .ok d → DocBuilt lt d
  | lang {d} (args : Option (Option CStr)) (s : Option CStr) : Doc.create args = .ok d →
      DocBuilt lt (d.setLang lt s)
  | call {d d'} (c : DocCall) : c.Good lt → DocBuilt lt d → c.run lt d = .ok d' → DocBuilt lt d'
  | copy {d d'} : DocBuilt lt d → d.copy = .ok d' → DocBuilt lt d'
  | union {c1 c2 d} : DocBuilt lt c1 → DocBuilt lt c2 → c1.union lt c2 = .ok d → DocBuilt lt d
  | intersect {c1 c2 d} : DocBuilt lt c1 → DocBuilt lt c2 → c1.intersect lt c2 = .ok d →
      DocBuilt lt d
  | archFilter {c d} (req : List CStr) : DocBuilt lt c → c.archFilter lt req = .ok d → DocBuilt lt d
  | doctype {d} (n s p : CStr) : DocBuilt lt d →
      DocBuilt lt { d with doctypeName := some n, doctypeSysid := some s, doctypePubid := some p }

/-- What the getters of a document return. -/
structure DocContent where
  groups : List Group
  categories : List Category
  environments : List Env
  langpacks : RTree PVal
  blacklist : MTree CStr
  whiteout : MTree CStr

/-- `c` is what the getters of `d` return, each called on `d`. -/
structure Shows (lt : UInt8 → UInt8 → Bool) (d : Doc) (c : DocContent) : Prop where
  groups : ∃ d', d.getObj lt groupsSlot = .ok (c.groups, d')
  categories : ∃ d', d.getObj lt categoriesSlot = .ok (c.categories, d')
  environments : ∃ d', d.getObj lt environmentsSlot = .ok (c.environments, d')
  langpacks : ∃ d', d.getObj lt langpacksSlot = .ok (c.langpacks, d')
  blacklist : ∃ d', d.getObj lt blacklistSlot = .ok (c.blacklist, d')
  whiteout : ∃ d', d.getObj lt whiteoutSlot = .ok (c.whiteout, d')

/-- Abstract effect of a call on the content. -/
def DocCall.effect (lt : UInt8 → UInt8 → Bool) (c : DocContent) : DocCall → DocContent
  | .setGroups l => { c with groups := l.getD [] }
  | .setCategories l => { c with categories := l.getD [] }
  | .setEnvironments l => { c with environments := l.getD [] }
  | .setLangpacks t => { c with langpacks := t.getD RTree.create }
  | .setBlacklist t => { c with blacklist := t.getD MTree.create }
  | .setWhiteout t => { c with whiteout := t.getD MTree.create }
  | .addGroup g => { c with groups := c.groups ++ [g] }
  | .addCategory g => { c with categories := c.categories ++ [g] }
  | .addEnvironment g => { c with environments := c.environments ++ [g] }
  | .addLangpack k s => { c with langpacks := c.langpacks.set lt k (some (.str s)) }
  | .addBlacklist k s => { c with blacklist := MTree.set c.blacklist k s }
  | .addWhiteout k s => { c with whiteout := MTree.set c.whiteout k s }
  | _ => c

/-- Does the text of a value match a criterion?  A criterion that is not given always holds; a value
that does not exist matches nothing. -/
def fits (fn : Bytes → Bytes → Bool) : Option Bytes → Option PVal → Bool
  | none, _ => true
  | some p, some (.str ⟨some t⟩) => fn p t
  | some _, _ => false

/-- The value a query with the given language looks at: the translation if a language is given. -/
def shown (plain : Option PVal) (byLang : RTree PVal) : Option Bytes → Option PVal
  | none => plain
  | some l => byLang.get l

/-- Two lists have the same length and related entries at each position. -/
def Alike {α β : Type} (R : α → β → Prop) (a : List α) (b : List β) : Prop :=
  a.length = b.length ∧ ∀ (i : Nat) (x : α) (y : β), a[i]? = some x → b[i]? = some y → R x y

/-- The id of an entry. -/
def idOf (props : RTree PVal) : Option PVal := props.get b!"id"

/-- The architectures of an entry. -/
def archesOf (props : RTree PVal) : Option (List CStr) :=
  match props.get b!"arches" with
  | some (.list l) => some l
  | _ => none

end Comps.Spec
