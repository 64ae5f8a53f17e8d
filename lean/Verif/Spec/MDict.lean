import Verif.Model.MRTree

/-!
# Specification: multi-dictionaries

The abstract content under a key is a sequence of objects.  Only the result type of a read
(`MVal`) and the operations whose results are reachable are taken from the model.
-/

namespace Comps.Spec

mutual
/-- The objects of one element of a value list, in order. -/
def flatV {V : Type} : MVal V → List V
  | .one v => [v]
  | .nested l => flatL l
/-- The objects of a value list, in order. -/
def flatL {V : Type} : List (MVal V) → List V
  | [] => []
  | x :: xs => flatV x ++ flatL xs
end

/-- The objects a read returns; NULL holds none. -/
def objects {V : Type} (r : Option (List (MVal V))) : List V := flatL (r.getD [])

/-- The objects written under `k`, first write first. -/
def written {V : Type} (ws : List (List UInt8 × V)) (k : List UInt8) : List V :=
  ws.filterMap fun w => if w.1 = k then some w.2 else none

/-- A history in which a write that leaves an earlier key after a non-empty common part comes
after a write of that common part. -/
def Nested {V : Type} (ws : List (List UInt8 × V)) : Prop :=
  ∀ pre w post, ws = pre ++ w :: post → ∀ w' ∈ pre, ∀ p a b as bs,
    w.1 = p ++ a :: as → w'.1 = p ++ b :: bs → a ≠ b → p ≠ [] → ∃ w'' ∈ pre, w''.1 = p

/-- Multi-dictionaries a client can hold: made by create, set, unset, unite
and copy (where it does not fault). -/
inductive MReach {V : Type} : MTree V → Prop
  | create : MReach MTree.create
  | set {t : MTree V} (k : Bytes) (v : V) : MReach t → MReach (MTree.set t k v)
  | unset {t t' : MTree V} (k : Bytes) : MReach t → MTree.unset t k = .ok t' → MReach t'
  | unite {t t' : MTree V} : MReach t → MReach t' → MReach (MTree.unite t t')
  | copy {t t' : MTree V} : MReach t → MTree.copy t = .ok t' → MReach t'

/-! What exactly writes and removals do.  `g` is what reads answer before, `g'` afterwards. -/

section
variable {α : Type} (g : List UInt8 → Option α) (k : List UInt8)

/-- `p` is where `k` leaves a key that is present, and is not itself present. -/
def Splits (p : List UInt8) : Prop :=
  p ≠ [] ∧ g p = none ∧
    ∃ a as b bs, a ≠ b ∧ k = p ++ b :: bs ∧ (g (p ++ a :: as)).isSome = true

/-- `q` is the first key present on the way from `p` on. -/
def First (p q : List UInt8) : Prop :=
  p <+: q ∧ (g q).isSome = true ∧ ∀ q', p <+: q' → q' <+: q → (g q').isSome = true → q' = q

/-- `k` is present, and it is the only key that extends some other key `p`. -/
def OnlyChild : Prop :=
  (g k).isSome = true ∧ ∃ p, p ≠ k ∧ p <+: k ∧ (g p).isSome = true ∧
    ∀ q, (g q).isSome = true → p <+: q → q = p ∨ q = k

end

section
variable {V : Type} (g : List UInt8 → Option (List (MVal V))) (k : List UInt8)

/-- A write of `vs` under `k`: they are added to the list of `k`, which is made if there is none.  If `k` leaves a key at a place `p` that is
not a key, `p` becomes one, with an empty list, and the list of the first key from there on is wrapped.
Nothing else changes.  A key that is present leaves no other in this way. -/
structure Wrote (vs : List (MVal V)) (g' : List UInt8 → Option (List (MVal V))) : Prop where
  here : g' k = some ((g k).getD [] ++ vs)
  split : ∀ p, Splits g k p → g' p = some []
  moved : ∀ p q, Splits g k p → First g p q → g' q = some [.nested ((g q).getD [])]
  other : ∀ q, q ≠ k → ¬ Splits g k q → (∀ p, Splits g k p → ¬ First g p q) → g' q = g q
  fresh : ∀ p, Splits g k p → g k = none

/-- A removal of `k`: the list is gone if no longer key is present, and empty otherwise. -/
structure Removed (g' : List UInt8 → Option (List (MVal V))) : Prop where
  absent : g k = none → g' k = none
  here : (∀ q, (g q).isSome = true → k <+: q → q = k) → g' k = none
  inner : ∀ q, (g k).isSome = true → (g q).isSome = true → k <+: q → q ≠ k → g' k = some []
  other : ∀ q, q ≠ k → g' q = g q

end

end Comps.Spec
