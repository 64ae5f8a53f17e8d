import Verif.Spec.PyComps
import Verif.Spec.Doc

/-!
# Python documents whose entries were made through the API
-/

namespace Comps.Spec.PyComps
open Comps Comps.Obj Comps.Spec Comps.PyComps

/-- The content `y` of a Python document has an encoding and a document type, and its entries, listed
in `c`, are objects reachable through the API. -/
structure Made (lt : UInt8 → UInt8 → Bool) (y : Content) (c : DocContent) : Prop where
  encoding : ∃ e, y.encoding = some e
  name : ∃ n, y.doctypeName = some n
  sysid : ∃ n, y.doctypeSysid = some n
  pubid : ∃ n, y.doctypePubid = some n
  groups : y.part .groups = .groups c.groups ∧ ∀ g ∈ c.groups, GroupBuilt lt g
  categories : y.part .categories = .cats c.categories ∧ ∀ g ∈ c.categories, CategoryBuilt lt g
  environments : y.part .environments = .envs c.environments ∧ ∀ g ∈ c.environments, EnvBuilt lt g
  langpacks : y.part .langpacks = .dict c.langpacks ∧ LangBuilt lt c.langpacks
  blacklist : y.part .blacklist = .mdict c.blacklist ∧ MReach c.blacklist
  whiteout : y.part .whiteout = .mdict c.whiteout ∧ MReach c.whiteout

end Comps.Spec.PyComps
