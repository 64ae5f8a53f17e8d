import Verif.Spec.Parse

/-!
# What the attributes of a file say

XML gives the order of attributes no meaning, and comps defines a few attributes only.  Two files
that differ in the order of attributes or in attributes comps does not define say the same.
-/

namespace Comps.Spec
open Comps Comps.Text
open Comps.Parse (Pos Event Parsed)

/-- The attributes comps defines for the element `n`. -/
abbrev definedAttrs (n : Bytes) : List Bytes := knownAttrs (fun _ => []) n

/-- Two files as sequences of handler calls: the same but for start tags whose attributes are listed
in another order or differ in attributes comps does not define.  `ok` says which lists of attributes
may be so changed. -/
inductive SameSaid (ok : List (Bytes × Bytes) → Prop) :
    List (Pos × Event) → List (Pos × Event) → Prop where
  | nil : SameSaid ok [] []
  | call (e : Pos × Event) {es es' : List (Pos × Event)} (h : SameSaid ok es es') :
      SameSaid ok (e :: es) (e :: es')
  | attrs (p : Pos) (n : Bytes) (a b : List (Bytes × Bytes)) {es es' : List (Pos × Event)}
      (ha : ok a) (hb : ok b) (hk : ∀ k ∈ definedAttrs n, attrOf a k = attrOf b k)
      (h : SameSaid ok es es') :
      SameSaid ok ((p, .start n a) :: es) ((p, .start n b) :: es')

/-- The code of messages about unknown attributes. -/
def attrCode : Nat := 27

/-- The messages that are not about unknown attributes. -/
def otherMessages (l : List LogEntry) : List LogEntry := l.filter fun e => e.code != attrCode

/-- The messages about unknown attributes. -/
def attrMessages (l : List LogEntry) : List LogEntry := l.filter fun e => e.code == attrCode

/-- The names of elements comps defines. -/
def elementNames : List Bytes :=
  [b!"comps", b!"group", b!"id", b!"name", b!"description", b!"default", b!"uservisible",
   b!"biarchonly", b!"packagelist", b!"packagereq", b!"category", b!"grouplist", b!"groupid",
   b!"display_order", b!"langonly", b!"environment", b!"langpacks", b!"match",
   b!"blacklist", b!"package", b!"whiteout", b!"ignoredep"]

/-- How messages call an element: `<optionlist>` is "option_list" and elements comps does not define
are "???". -/
def shownAs (n : Bytes) : Bytes :=
  if n = b!"optionlist" then b!"option_list" else if n ∈ elementNames then n else b!"???"

/-- The message about the attribute `k` of an element `n` that starts at `p`. -/
def attrMessage (n : Bytes) (p : Pos) (k : Bytes) : LogEntry :=
  ⟨attrCode, [some (.str ⟨some k⟩), some (.str ⟨some (shownAs n)⟩), some (.num p.line),
    some (.num p.col)]⟩

/-- The messages a file deserves about its attributes: one for each attribute that is not known. -/
def attrsToReport (extra : Bytes → List Bytes) (es : List (Pos × Event)) : List LogEntry :=
  es.flatMap fun e =>
    match e.2 with
    | .start n attrs =>
      ((attrs.map (·.1)).filter fun k => !(knownAttrs extra n).contains k).map (attrMessage n e.1)
    | _ => []

/-- All attributes of a file meet `ok`. -/
def AllAttrs (ok : List (Bytes × Bytes) → Prop) (es : List (Pos × Event)) : Prop :=
  ∀ e ∈ es, ∀ n attrs, e.2 = .start n attrs → ok attrs

end Comps.Spec
