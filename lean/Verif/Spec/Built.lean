import Verif.Model.Group

/-!
# Objects reachable through the API

`GroupBuilt lt g`: the group `g` results from a finite sequence of API calls.  The language
dictionaries are written with strings, as the parser and the bindings do.  Likewise for categories
and environments.
-/

namespace Comps.Spec
open Comps Comps.Obj

/-- Groups reachable through the API. -/
inductive GroupBuilt (lt : UInt8 → UInt8 → Bool) : Group → Prop
  | create : GroupBuilt lt Group.create
  | prop {g} (c : PropCall) : GroupBuilt lt g → GroupBuilt lt { g with props := c.run lt g.props }
  | nameLang {g} (k : Bytes) (s : CStr) : GroupBuilt lt g →
      GroupBuilt lt { g with nameByLang := g.nameByLang.set lt k (some (.str s)) }
  | descLang {g} (k : Bytes) (s : CStr) : GroupBuilt lt g →
      GroupBuilt lt { g with descByLang := g.descByLang.set lt k (some (.str s)) }
  | add {g} (p : Package) : GroupBuilt lt g → GroupBuilt lt (g.addPackage p)
  | setPackages {g} (l : Option (List Package)) : GroupBuilt lt g → GroupBuilt lt (g.setPackageList l)
  | copy {g} : GroupBuilt lt g → GroupBuilt lt g.copy
  | union {g h} : GroupBuilt lt g → GroupBuilt lt h → GroupBuilt lt (g.union lt h)
  | intersect {g h r} : GroupBuilt lt g → GroupBuilt lt h → g.intersect lt h = .ok r → GroupBuilt lt r
  | archFilter {g r} (l : List CStr) : GroupBuilt lt g → g.archFilter l = .ok r → GroupBuilt lt r

/-- Categories reachable through the API. -/
inductive CategoryBuilt (lt : UInt8 → UInt8 → Bool) : Category → Prop
  | create : CategoryBuilt lt Category.create
  | prop {g} (c : PropCall) : CategoryBuilt lt g →
      CategoryBuilt lt { g with props := c.run lt g.props }
  | nameLang {g} (k : Bytes) (s : CStr) : CategoryBuilt lt g →
      CategoryBuilt lt { g with nameByLang := g.nameByLang.set lt k (some (.str s)) }
  | descLang {g} (k : Bytes) (s : CStr) : CategoryBuilt lt g →
      CategoryBuilt lt { g with descByLang := g.descByLang.set lt k (some (.str s)) }
  | add {g} (p : GroupId) : CategoryBuilt lt g → CategoryBuilt lt (g.addGroupId p)
  | setIds {g} (l : Option (List GroupId)) : CategoryBuilt lt g → CategoryBuilt lt (g.setGroupIds l)
  | copy {g} : CategoryBuilt lt g → CategoryBuilt lt g.copy
  | union {g h} : CategoryBuilt lt g → CategoryBuilt lt h → CategoryBuilt lt (g.union lt h)
  | intersect {g h r} : CategoryBuilt lt g → CategoryBuilt lt h → g.intersect lt h = .ok r →
      CategoryBuilt lt r
  | archFilter {g r} (l : List CStr) : CategoryBuilt lt g → g.archFilter l = .ok r →
      CategoryBuilt lt r

/-- Environments reachable through the API. -/
inductive EnvBuilt (lt : UInt8 → UInt8 → Bool) : Env → Prop
  | create : EnvBuilt lt Env.create
  | prop {g} (c : PropCall) : EnvBuilt lt g → EnvBuilt lt { g with props := c.run lt g.props }
  | nameLang {g} (k : Bytes) (s : CStr) : EnvBuilt lt g →
      EnvBuilt lt { g with nameByLang := g.nameByLang.set lt k (some (.str s)) }
  | descLang {g} (k : Bytes) (s : CStr) : EnvBuilt lt g →
      EnvBuilt lt { g with descByLang := g.descByLang.set lt k (some (.str s)) }
  | add {g} (p : GroupId) : EnvBuilt lt g → EnvBuilt lt (g.addGroupId p)
  | addOption {g} (p : GroupId) : EnvBuilt lt g → EnvBuilt lt (g.addOptionId p)
  | setGroups {g} (l : Option (List GroupId)) : EnvBuilt lt g → EnvBuilt lt (g.setGroupList l)
  | setOptions {g} (l : Option (List GroupId)) : EnvBuilt lt g → EnvBuilt lt (g.setOptionList l)
  | copy {g} : EnvBuilt lt g → EnvBuilt lt g.copy
  | union {g h} : EnvBuilt lt g → EnvBuilt lt h → EnvBuilt lt (g.union lt h)
  | intersect {g h r} : EnvBuilt lt g → EnvBuilt lt h → g.intersect lt h = .ok r → EnvBuilt lt r
  | archFilter {g r} (l : List CStr) : EnvBuilt lt g → g.archFilter l = .ok r → EnvBuilt lt r

/-- The type of value a property holds: 0 string, 1 number, 2 list of architectures. -/
def kind : PVal → Nat
  | .str _ => 0
  | .num _ => 1
  | .list _ => 2

/-- The nine property names with their types. -/
def propKinds : List (Bytes × Nat) :=
  [(b!"id", 0), (b!"name", 0), (b!"desc", 0), (b!"langonly", 0), (b!"def", 1),
    (b!"uservisible", 1), (b!"biarchonly", 1), (b!"display_order", 1), (b!"arches", 2)]

/-- The value a property has after a sequence of setter calls, read from the calls alone: the last
call for that property decides; a string setter given NULL does not count. -/
def lastStr (p : StrProp) : List PropCall → Option Bytes → Option Bytes
  | [], cur => cur
  | .str q (some s) :: cs, cur => lastStr p cs (if q = p then some s else cur)
  | _ :: cs, cur => lastStr p cs cur

/-- As above for number properties; a call with `unset` removes the value. -/
def lastNum (p : NumProp) : List PropCall → Option Int → Option Int
  | [], cur => cur
  | .num q n u :: cs, cur => lastNum p cs (if q = p then (if u then none else some n) else cur)
  | _ :: cs, cur => lastNum p cs cur

/-- As above for the list of architectures. -/
def lastArches : List PropCall → Option (List CStr) → Option (List CStr)
  | [], cur => cur
  | .arches l :: cs, _ => lastArches cs l
  | _ :: cs, cur => lastArches cs cur

end Comps.Spec
