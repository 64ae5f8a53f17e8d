import Verif.Model.RTree
import Verif.Spec.FMap

/-!
# Specification: histories of writes, removals and clearings of a dictionary
-/

namespace Comps.Spec
variable {V : Type}

/-- A call that changes a dictionary. -/
inductive DictOp (V : Type) where
  | set (k : List UInt8) (v : Option V)
  | unset (k : List UInt8)
  | clear

/-- The calls, one after the other. -/
def dictRun (lt : UInt8 → UInt8 → Bool) : RTree V → List (DictOp V) → Res (RTree V)
  | t, [] => .ok t
  | t, .set k v :: ops => dictRun lt (t.set lt k v) ops
  | t, .unset k :: ops =>
    match t.unset k with
    | .error f => .error f
    | .ok t' => dictRun lt t' ops
  | t, .clear :: ops => dictRun lt t.clear ops

/-- What the calls mean for a map. -/
def FMap.run (m : FMap V) : List (DictOp V) → FMap V
  | [] => m
  | .set k v :: ops => (m.upd k v).run ops
  | .unset k :: ops => (m.upd k Option.none).run ops
  | .clear :: ops => FMap.none.run ops

end Comps.Spec
