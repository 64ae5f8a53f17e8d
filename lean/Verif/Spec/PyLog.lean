import Verif.Model.PyComps
import Verif.Spec.Doc
import Verif.Spec.Text

/-!
# What the messages of the log should say

Without the functions that make the texts.
-/

namespace Comps.Spec.PyLog
open Comps Comps.Obj Comps.Parse Comps.Spec

/-- The text of an argument: of a string itself, of a number its decimal digits, of NULL nothing. -/
def ArgSays : Option PVal → Bytes → Prop
  | none, b => b = []
  | some (.str s), b => b = s.val.getD []
  | some (.num n), b => 0 ≤ n ∧ IsDec n.toNat b
  | some (.list _), _ => False

/-- The texts of the arguments, in order. -/
def ArgsSay : List (Option PVal) → List Bytes → Prop
  | [], [] => True
  | a :: as, b :: bs => ArgSays a b ∧ ArgsSay as bs
  | _, _ => False

/-- `t` is the message of the entry: the format of its code, with the placeholders replaced by the texts
of the arguments, each used once. -/
def Says (e : LogEntry) (t : Bytes) : Prop :=
  ∃ fmt bs, Text.logFormat e.code = some fmt ∧ ArgsSay e.args bs ∧ Renders fmt bs t

/-- The messages of a log, one for each entry, in order. -/
def Tells : List LogEntry → List Bytes → Prop
  | [], [] => True
  | e :: es, t :: ts => Says e t ∧ Tells es ts
  | _, _ => False

/-- A position that fits an `int`. -/
def PosOk (p : Pos) : Prop := 0 ≤ p.line ∧ 0 ≤ p.col

/-- A piece of input in which all positions fit an `int`. -/
def ChunkOk (c : Chunk) : Prop :=
  (∀ x ∈ c.events, PosOk x.1) ∧ ∀ p m, c.error = some (p, m) → PosOk p

/-- A call that does not read input with more than 2^31 lines or columns. -/
def OpOk : PyComps.Op → Prop
  | .fromStr _ _ c => ChunkOk c
  | .fromFile _ _ (some cs) => ∀ c ∈ cs, ChunkOk c
  | _ => True

/-- A text in UTF-8: characters, encoded one after the other. -/
def Utf8 (b : Bytes) : Prop := ∃ cs : List Char, b = cs.flatMap String.utf8EncodeChar

/-- Input whose element names, attribute names and texts, and the text of an error, are in UTF-8. -/
def Utf8Chunk (c : Chunk) : Prop :=
  (∀ p n attrs, (p, Event.start n attrs) ∈ c.events → Utf8 n ∧ ∀ a ∈ attrs, Utf8 a.1) ∧
  (∀ p b, (p, Event.text b) ∈ c.events → Utf8 b) ∧
  ∀ p m, c.error = some (p, m) → Utf8 m

/-- A warning: a wrong value of a flag (5), an attribute that is not known (27), or a second
`<display_order>` (3, with NULL for a name). -/
def Warning (e : LogEntry) : Prop :=
  e.code = 5 ∨ e.code = 27 ∨ (e.code = 3 ∧ e.args.head? = some (some (.str ⟨none⟩)))

/-- The entries that are not warnings, in order. -/
inductive Errors : List LogEntry → List LogEntry → Prop
  | nil : Errors [] []
  | skip {e es l} : Warning e → Errors es l → Errors (e :: es) l
  | keep {e es l} : ¬ Warning e → Errors es l → Errors (e :: es) (e :: l)

/-- The text of an id. -/
def idText : Option PVal → Bytes
  | some (.str ⟨some b⟩) => b
  | _ => []

/-- The message about a group that was left out. -/
def groupLeft (id : Option PVal) : Bytes :=
  b!"Group with id " ++ idText id ++ b!" has no packages.skipping xml output\n"

/-- The message that there is for a category that was left out. -/
def categoryLeft (id : Option PVal) : Bytes :=
  b!"Category with id " ++ idText id ++ b!" has no group ids.skipping xml output\n"

/-- The message that there is for an environment that was left out. -/
def envLeft (id : Option PVal) : Bytes :=
  b!"Environment with id " ++ idText id ++ b!" has no group ids and no .option ids. Skipping xml output\n"

/-- The ids of entries that are there satisfy `P`. -/
def IdsAre (P : Bytes → Prop) (c : DocContent) : Prop :=
  ∀ t : RTree PVal, ((∃ g ∈ c.groups, g.props = t) ∨ (∃ g ∈ c.categories, g.props = t) ∨
    ∃ g ∈ c.environments, g.props = t) → ∀ s b, t.get b!"id" = some (.str s) → s.val = some b → P b

end Comps.Spec.PyLog
