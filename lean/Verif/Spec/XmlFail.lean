import Verif.Spec.Xml

/-!
# Failing writers

Which failures of the libxml2 writer end the output, and which are at least logged.
-/

namespace Comps.Spec
open Comps Comps.Obj Comps.Xml

/-- Elements whose start must not fail: the root, the entries, their lists, and everything in
language packs, black list and whiteout. -/
def vitalTags : List Bytes :=
  [b!"comps", b!"group", b!"category", b!"environment", b!"packagelist", b!"grouplist", b!"optionlist",
    b!"langpacks", b!"match", b!"blacklist", b!"package", b!"whiteout", b!"ignoredep"]

/-- Calls whose failure ends the output. -/
def Vital : Call → Bool
  | .startDTD _ _ _ => true
  | .startElement n => vitalTags.contains n
  | .attribute k _ => k == b!"xml:lang"
  | _ => false

/-- Calls whose failure is logged. -/
def Told : Call → Bool
  | .startDocument _ => true
  | .endDocument => true
  | .startElement n => vitalTags.contains n || n == b!"packagereq" || n == b!"groupid"
  | .attribute k _ => k == b!"xml:lang" || k == b!"basearchonly"
  | .startDTD _ _ _ => true
  | _ => false

/-- "Can't generate xml" is in the log. -/
def HasXmlgen (log : List LogEntry) : Prop := ∃ e ∈ log, e.code = 20

/-- The messages about entries left out. -/
def skips (log : List LogEntry) : List LogEntry := log.filter fun e => e.code == 25

/-- All vital calls succeeded. -/
def AllVital (calls : List (Call × Bool)) : Prop := ∀ x ∈ calls, Vital x.1 = true → x.2 = true

/-- The output ended at the first vital failure: after it there is nothing but the end of the document
type and of the document. -/
def Ended (calls : List (Call × Bool)) : Prop :=
  ∃ pre c rest, calls = pre ++ (c, false) :: rest ∧ AllVital pre ∧
    ∀ x ∈ rest, x.1 = .endDTD ∨ x.1 = .endDocument

/-- A failed call that is logged leaves a message. -/
def TellsAll (calls : List (Call × Bool)) (log : List LogEntry) : Prop :=
  (∃ x ∈ calls, x.2 = false ∧ Told x.1 = true) → HasXmlgen log

/-- The three strings of the document type exist. -/
structure DoctypeSet (d : Doc) : Prop where
  name : d.doctypeName.isSome = true
  pubid : d.doctypePubid.isSome = true
  sysid : d.doctypeSysid.isSome = true

end Comps.Spec
