import Verif.Model.ParseLife
import Verif.Spec.Parse

/-!
# What becomes of the documents of a parser

Only the tags `<comps>` in the inputs matter: each makes a document.
-/

namespace Comps.Spec
open Comps Comps.Parse

/-- The document of a parser: there is none, there is one, or it is gone but the parser still points
to it. -/
inductive Held where
  | none | has | gone
  deriving DecidableEq, Repr

/-- A document and how many were lost before it. -/
structure Account where
  held : Held
  lost : Nat
  deriving DecidableEq, Repr

/-- The start of an element `<comps>`. -/
def IsRoot : Event → Bool
  | .start n _ => n == b!"comps"
  | _ => false

/-- The calls that expat makes for an input. -/
def inputOf (cs : List Chunk) : List (Pos × Event) := cs.flatMap (·.events)

/-- How many elements `<comps>` begin in an input. -/
def roots (es : List (Pos × Event)) : Nat := es.countP fun e => IsRoot e.2

/-- An input makes a document for each `<comps>`; all but the last are lost, and so is the one that
was there before. -/
def Account.read (a : Account) (es : List (Pos × Event)) : Account :=
  if roots es = 0 then a
  else ⟨.has, a.lost + (if a.held = .has then 1 else 0) + (roots es - 1)⟩

/-- The document is released, but the pointer stays. -/
def Account.reset (a : Account) : Account :=
  match a.held with
  | .has => ⟨.gone, a.lost⟩
  | _ => a

/-- One use. -/
def Account.use (a : Account) : Use → Account
  | .file _ (some cs) => a.reset.read (inputOf cs)
  | .file _ Option.none => a
  | .str _ c => a.read c.events
  | .take => ⟨.none, a.lost⟩

/-- The account of a new parser after some uses. -/
def account (us : List Use) : Account := us.foldl Account.use ⟨.none, 0⟩

/-- All uses compare bytes alike. -/
def Use.Lt (lt : UInt8 → UInt8 → Bool) : Use → Prop
  | .file cx _ => cx.lt = lt
  | .str cx _ => cx.lt = lt
  | .take => True

/-- The input of a use, if there is one, ends without text after its last tag. -/
def Use.Tidy : Use → Prop
  | .file _ (some cs) => openText (inputOf cs) = []
  | .file _ Option.none => True
  | .str _ c => openText c.events = []
  | .take => True

end Comps.Spec
