import Verif.Model.Parse

/-!
# The life of a parser object

A `COMPS_Parsed` is used for one input after another and then destroyed
(`/repo/libcomps/src/comps_parse.c`, `/repo/libcomps/src/comps_elem.c`,
`/repo/libcomps/src/python/src/pycomps.c`).

Beside the faults of the calls the model counts the documents that are lost: those whose only pointer
is overwritten.
-/

namespace Comps
namespace Parse
open Comps.Obj Comps.Text

/-- comps_parse.c:112-122 `comps_parse_parsed_destroy`: the parser releases its document.  The stack,
the text, the log and the document type belong to the parser alone and are freed. -/
def parsedDestroy (s : Parsed) : Res Unit :=
  match s.doc with
  | .null => .ok ()
  | .live d => Doc.destroy d
  | .freed => .error .useAfterFree

/-- pycomps.c:258 and 270, 364 and 376: the caller takes the document and sets the pointer of the
parser to NULL. -/
def takeDoc (s : Parsed) : Parsed := { s with doc := .null }

/-- comps_elem.c:449-454 `comps_elem_doc_preproc`: the pointer is overwritten; a document it pointed to
is lost.  The handler is called for every `<comps>`, as the table asks for no parent
(comps_elem.c:28-34, comps_parse.c:367-369). -/
def lostBy (s : Parsed) (e : Event) : Nat :=
  match e, s.doc with
  | .start n _, .live _ => if getType n == .doc then 1 else 0
  | _, _ => 0

/-- The documents lost during the handler calls of one piece of input (comps_parse.c:55-59). -/
def lostIn (cx : Ctx) (s : Parsed) : List (Pos × Event) → Nat
  | [] => 0
  | e :: es => lostBy s e.2 + match step cx s e with
    | .ok s' => lostIn cx s' es
    | .error _ => 0

/-- The documents lost during the loop of comps_parse.c:219-239. -/
def lostFeeds (cx : Ctx) (s : Parsed) : List Chunk → Nat
  | [] => 0
  | c :: cs => lostIn cx s c.events + match feed cx s c with
    | .ok s' => lostFeeds cx s' cs
    | .error _ => 0

/-- One use of a parser. -/
inductive Use where
  | file (cx : Ctx) (f : Option (List Chunk))
  | str (cx : Ctx) (c : Chunk)
  | take

/-- A use, and how many documents it loses (comps_parse.c:202-273, pycomps.c:258, 270).
`comps_parse_file` releases the document it finds first, so what is lost in it is counted from the
state after the reset. -/
def Use.run (s : Parsed) : Use → Res (Parsed × Nat)
  | .file cx f => do
    let r ← parseFile cx s f
    match f, reinit s with
    | some cs, .ok s0 => .ok (r.2, lostFeeds cx s0 cs)
    | _, _ => .ok (r.2, 0)
  | .str cx c => do
    let r ← parseStr cx s c
    .ok (r.2, lostIn cx s c.events)
  | .take => .ok (takeDoc s, 0)

/-- Uses one after another, and how many documents they lose together (comps_parse.c:202-273). -/
def runUses (s : Parsed) : List Use → Res (Parsed × Nat)
  | [] => .ok (s, 0)
  | u :: us => do
    let r ← u.run s
    let r' ← runUses r.1 us
    .ok (r'.1, r.2 + r'.2)

end Parse
end Comps
