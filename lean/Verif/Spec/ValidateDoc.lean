import Verif.Model.ValidateDoc
import Verif.Spec.Built
import Verif.Spec.Doc
import Verif.Spec.Validate

/-!
# What is wrong with a document

Complete lists of complaints, each with the object it is about.  `num` writes numbers.
-/

namespace Comps.Spec
open Comps Comps.Obj Comps.Val

/-- What is wrong with a name or an id: nothing there, or an empty text. -/
def missing : Option (Option Bytes) → List Bytes
  | none => [b!"attr not set"]
  | some (some []) => [b!"attr empty"]
  | _ => []

/-- What is wrong with the id among the properties. -/
def missingId (props : RTree PVal) : List Bytes :=
  match props.get b!"id" with
  | some (.str s) => missing (some s.val)
  | _ => missing none

/-- Positions `(i, j)`, in the order of `j`, where the element at `j` is the same as an earlier one and
`i` is the first position with the same. -/
def repeats {α : Type} (same : α → α → Bool) (l : List α) : List (Nat × Nat) :=
  (List.range l.length).flatMap fun j =>
    match (List.range j).find? fun i => (l[i]?.bind fun a => l[j]?.map fun b => same a b).getD false with
    | some i => [(i, j)]
    | none => []

/-- The same package: name, required package and type; architectures do not count. -/
def samePackage (a b : Package) : Bool :=
  a.name == b.name && a.requires == b.requires && a.type == b.type

/-- The same group id: name and default. -/
def sameGroupId (a b : GroupId) : Bool := a.name == b.name && a.dflt == b.dflt

/-- The complaint about a repeated element. -/
def dupText (num : Nat → Bytes) (p : Nat × Nat) : Bytes :=
  b!"Duplicate items at " ++ num p.1 ++ b!" and " ++ num p.2

/-- Complaints about a group. -/
def groupReport (num : Nat → Bytes) (g : Group) : List (VObj × Bytes) :=
  ((missingId g.props).map (b!"Group id check: " ++ ·) ++
    (repeats samePackage (g.packages.getD [])).map fun p =>
      b!"Group unique package list check: " ++ dupText num p).map fun m => (.group g, m)

/-- Complaints about a category. -/
def categoryReport (num : Nat → Bytes) (g : Category) : List (VObj × Bytes) :=
  ((missingId g.props).map (b!"Category id check: " ++ ·) ++
    (repeats sameGroupId (g.groupIds.getD [])).map fun p =>
      b!"Category unique package list check: " ++ dupText num p).map fun m => (.category g, m)

/-- Complaints about an environment. -/
def envReport (num : Nat → Bytes) (g : Env) : List (VObj × Bytes) :=
  ((missingId g.props).map (b!"Environment id check: " ++ ·) ++
    ((repeats sameGroupId (g.groupList.getD [])).map (fun p =>
      b!"Environment unique group list check: " ++ dupText num p) ++
    (repeats sameGroupId (g.optionList.getD [])).map fun p =>
      b!"Environment unique option list check: " ++ dupText num p)).map fun m => (.env g, m)

/-- Complaints about the members of a list, with their positions. -/
def listReport {α : Type} (num : Nat → Bytes) (what : Bytes) (report : α → List (VObj × Bytes))
    (l : List α) : List (VObj × Bytes) :=
  l.zipIdx.flatMap fun e => (report e.1).map fun r => (r.1, what ++ num e.2 ++ b!"." ++ r.2)

/-- Complaints about a document. -/
def docReport (num : Nat → Bytes) (c : DocContent) : List (VObj × Bytes) :=
  listReport num b!"Groups check:" (groupReport num) c.groups ++
  (listReport num b!"Categories check:" (categoryReport num) c.categories ++
  listReport num b!"Environments check:" (envReport num) c.environments)

/-- A result of a validation says what is in the report. -/
def Says (v : ValRes VObj) (report : List (VObj × Bytes)) : Prop :=
  match v with
  | .ok => report = []
  | .err es => report ≠ [] ∧ es.map (fun e => (e.obj, e.msg)) = report

/-- All lists of entries exist and are not longer than a thousand million. -/
structure Listed (c : DocContent) : Prop where
  groups : ∀ g ∈ c.groups, ∃ l, g.packages = some l ∧ l.length ≤ 10 ^ 9
  categories : ∀ g ∈ c.categories, ∃ l, g.groupIds = some l ∧ l.length ≤ 10 ^ 9
  environments : ∀ g ∈ c.environments, (∃ l, g.groupList = some l ∧ l.length ≤ 10 ^ 9) ∧
    ∃ l, g.optionList = some l ∧ l.length ≤ 10 ^ 9
  few : c.groups.length < 2 ^ 64 ∧ c.categories.length < 2 ^ 64 ∧ c.environments.length < 2 ^ 64

end Comps.Spec
