import Verif.Model.RTree

/-!
# Dictionaries reachable through the API

`Reach lt S t`: `t` results from a sequence of API calls, and `S` lists every key written into
it since it was created or cleared.  `lt` is the order of `char`.
-/

namespace Comps.Spec
open Comps
variable {V : Type}

/-- Reachable dictionaries with the keys written into them. -/
inductive Reach (lt : UInt8 → UInt8 → Bool) : List Bytes → RTree V → Prop
  | create : Reach lt [] RTree.create
  | set {S t} (k : Bytes) (v : Option V) : Reach lt S t → Reach lt (k :: S) (t.set lt k v)
  | unset {S t t'} (k : Bytes) : Reach lt S t → t.unset k = .ok t' → Reach lt S t'
  | clear {S t} : Reach lt S t → Reach lt [] t.clear
  | clone {S t} (f : V → V) : Reach lt S t → Reach lt S (t.clone f)
  | copy {S t} (f : V → V) : Reach lt S t → Reach lt S (t.copy f)
  | unite {S t S' t'} : Reach lt S t → Reach lt S' t' → Reach lt (S' ++ S) (t.unite lt t')

end Comps.Spec
