import Verif.Model.Parse
import Verif.Spec.Doc

/-!
# Documents that come out of a parser

A parser object used in any way, on any input, and what a document in it looks like.
-/

namespace Comps.Spec
open Comps Comps.Obj Comps.Parse

/-- A parser made for the encoding `enc` after any calls that came to an end; the options may differ
from call to call. -/
inductive Used (lt : UInt8 → UInt8 → Bool) (enc : Option Bytes) : Parsed → Prop
  | new : Used lt enc (init enc)
  | file {s r} (cx : Ctx) (f : Option (List Chunk)) : cx.lt = lt → Used lt enc s →
      parseFile cx s f = .ok r → Used lt enc r.2
  | str {s r} (cx : Ctx) (c : Chunk) : cx.lt = lt → Used lt enc s →
      parseStr cx s c = .ok r → Used lt enc r.2

/-- The names of the three flags of a group. -/
def flagProps : List NumProp := [.dflt, .uservisible, .biarchonly]

/-- A flag is 0 or 1 if it is set. -/
def FlagOk (v : Option PVal) : Prop := v = none ∨ v = some (.num 0) ∨ v = some (.num 1)

/-- The three flags of a group are set. -/
def FlagsSet (g : Group) : Prop := ∀ p ∈ flagProps, getNumProp g.props p ≠ none

/-- No entry lacks its list, and no flag is a number other than 0 and 1. -/
structure Whole (c : DocContent) : Prop where
  packages : ∀ g ∈ c.groups, g.packages ≠ none
  flags : ∀ g ∈ c.groups, ∀ p ∈ flagProps, FlagOk (getNumProp g.props p)
  ids : ∀ x ∈ c.categories, x.groupIds ≠ none
  lists : ∀ x ∈ c.environments, x.groupList ≠ none ∧ x.optionList ≠ none

end Comps.Spec
