/-!
# Specification: finite maps as functions

Independent of the model: keys are byte strings, a map is a function to `Option`.
-/

namespace Comps.Spec

/-- A partial map. -/
abbrev FMap (V : Type) := List UInt8 → Option V

/-- The map with nothing in it. -/
def FMap.none {V : Type} : FMap V := fun _ => Option.none

/-- Point update (`v = none` stores the NULL value, which reads like an absent key). -/
def FMap.upd {V : Type} (m : FMap V) (k : List UInt8) (v : Option V) : FMap V :=
  fun k' => if k' = k then v else m k'

/-- Effect of a sequence of writes, first write first. -/
def FMap.writes {V : Type} (m : FMap V) : List (List UInt8 × Option V) → FMap V
  | [] => m
  | (k, v) :: ws => (m.upd k v).writes ws

/-- Right-biased union. -/
def FMap.merge {V : Type} (a b : FMap V) : FMap V := fun k => (b k).or (a k)

/-- `k` is a proper prefix of `k'`. -/
def ProperPrefix (k k' : List UInt8) : Prop := ∃ b bs, k' = k ++ b :: bs

end Comps.Spec
