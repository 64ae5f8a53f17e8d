import Verif.Spec.PyHeap
import Verif.Spec.Doc

/-!
# Documents in Python programs: what their lists are, what a search wants, what is valid
-/

namespace Comps.PyHeap
open Comps Comps.Obj
open Comps.Spec (fits shown)
open Comps.PyElem (Pkg EKind Arg)

/-- The object in a variable. -/
def R.at? (r : R) (v : Nat) : Option Nat :=
  match var r.vars v with
  | none => none
  | some w =>
    match r.objs[w]? with
    | some (.wrap _ a _ _) => some a
    | _ => none

/-- The members of a list. -/
def itemsAt (objs : List Body) (l : Nat) : List Nat :=
  match objs[l]? with
  | some (.list _ items) => items
  | _ => []

/-- The entries of the document in a variable: none if it has no list. -/
def R.entries (r : R) (v : Nat) (s : DSec) : List Nat :=
  match (r.at? v).bind fun a => r.objs[a]? with
  | some (.doc ls _) =>
    match ls.get s with
    | some l => itemsAt r.objs l
    | none => []
  | _ => []

/-- The translations at an address. -/
def textsAt (objs : List Body) : Option Nat → RTree PVal
  | none => RTree.create
  | some a =>
    match objs[a]? with
    | some (.dict t) => t
    | _ => RTree.create

/-- Does a search want the entry?  Its id, name and description fit what is asked for, name and
description in the language asked for; groups are also wanted for their description in no language. -/
def wanted (objs : List Body) (s : DSec) (fn : Bytes → Bytes → Bool) (q : Query) (a : Nat) : Bool :=
  match objs[a]? with
  | some (.entry _ p n d _ _) =>
    let desc := p.get b!"desc"
    fits fn q.id (p.get b!"id") && fits fn q.name (shown (p.get b!"name") (textsAt objs n) q.lang) &&
      (fits fn q.desc (shown desc (textsAt objs d) q.lang) || s == .groups && fits fn q.desc desc)
  | _ => false

/-- The text of an argument. -/
def textOf : Option Arg → Option Bytes
  | some (.str s) => s
  | _ => none

/-- What a search asks for. -/
def asked (a : SearchArgs) : Query := ⟨textOf a.id, textOf a.name, textOf a.desc, textOf a.lang⟩

/-- Arguments a search takes: not given, or a text without NUL. -/
def Takes (a : SearchArgs) : Prop :=
  ∀ x ∈ [a.id, a.name, a.desc, a.lang], ∀ y, x = some y → ∃ b : Bytes, y = .str (some b) ∧ 0 ∉ b

/-! ## What is valid -/

/-- There is a text and it is not empty. -/
def named : Option CStr → Bool
  | some ⟨some (_ :: _)⟩ => true
  | _ => false

/-- The same package (name, requires, type) or group id (name, default). -/
def alike (objs : List Body) (a b : Nat) : Prop :=
  match objs[a]?, objs[b]? with
  | some (.pkg p), some (.pkg q) => p.name = q.name ∧ p.requires = q.requires ∧ p.type = q.type
  | some (.gid p), some (.gid q) => p.name = q.name ∧ p.dflt = q.dflt
  | _, _ => False

/-- No two members are alike. -/
def Distinct (objs : List Body) (l : Option Nat) : Prop :=
  match l with
  | none => True
  | some l => (itemsAt objs l).Pairwise fun a b => ¬ alike objs a b

/-- A package or group id has a name, an entry an id and no two alike in its lists. -/
def Valid (objs : List Body) (a : Nat) : Prop :=
  match objs[a]? with
  | some (.pkg p) => named p.name = true
  | some (.gid g) => named g.name = true
  | some (.entry _ p _ _ l o) =>
    (∃ s, p.get b!"id" = some (.str s) ∧ named (some s) = true) ∧ Distinct objs l ∧ Distinct objs o
  | _ => False

/-- A package whose name has no text: one made without a name. -/
def Nameless (objs : List Body) (a : Nat) : Prop :=
  match objs[a]? with
  | some (.pkg p) => p.name = some ⟨none⟩
  | some (.gid g) => g.name = some ⟨none⟩
  | _ => False

/-- The id of an entry. -/
def entryId (objs : List Body) (a : Nat) : Option PVal :=
  match objs[a]? with
  | some (.entry _ p _ _ _ _) => p.get b!"id"
  | _ => none

/-- The id of the object is taken in a list of entries. -/
def Taken (objs : List Body) (k : LKind) (items : List Nat) (a : Nat) : Prop :=
  k.keyed = true ∧ ∃ b ∈ items, entryId objs b = entryId objs a

/-- Types of objects that have `validate`. -/
def PType.checked : PType → Bool
  | .package | .groupId | .entry _ => true
  | _ => false

end Comps.PyHeap
