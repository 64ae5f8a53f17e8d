import Verif.Model.MRadix
import Verif.Spec.MDict
import Verif.Spec.Radix

/-!
# Specification of the plain multi-dictionary

A key has a sequence of pointers, the ones written under it (`Verif/Spec/MDict.lean`: `written`, `Nested`,
`Splits`, `First`, `OnlyChild`).  What can be seen of a dictionary is `comps_mdict_getp`: whether there is
an address for a key, and the list there.
-/

namespace Comps
namespace Spec.PlainM
open Comps.Radix (Calls)
open Comps.MRadix (MStore Elem)
open Comps.Spec.Plain (made)
variable {V : Type}

/-- What `comps_mdict_getp` finds for every key; nothing if the dictionary is unusable. -/
def seen (s : MStore V) (k : Bytes) : Option (Option (List (Elem V))) :=
  match MRadix.getp s k with
  | .ok r => r
  | .error _ => none

/-- What `comps_mdict_get` finds for every key; nothing if the dictionary is unusable. -/
def reads (s : MStore V) (k : Bytes) : Option (List (Elem V)) :=
  match MRadix.get s k with
  | .ok r => r
  | .error _ => none

/-- Writes one after the other. -/
def sets (c : Calls V) : MStore V → List (Bytes × Option V) → Res (MStore V)
  | s, [] => .ok s
  | s, e :: es => do
    let s' ← MRadix.set c s e.1 e.2
    sets c s' es

/-- The values stored by writes, in order. -/
def stored (c : Calls V) (ws : List (Bytes × Option V)) : List (Bytes × Option V) :=
  ws.map fun e => (e.1, made c e.2)

/-- No empty key and no NULL. -/
def Proper (c : Calls V) (ws : List (Bytes × Option V)) : Prop :=
  ∀ e ∈ ws, e.1 ≠ [] ∧ made c e.2 ≠ none

/-- What a write of `v` under `k` does.  `g` is what is seen before and `g'` afterwards; a list may be a
NULL list.  A list is made for a new key (empty for NULL); a value is added to a list, and lost
if it is a NULL list.  If `k` leaves a key that is present at a place `p` that is not a key, `p` becomes a
key with a NULL list, and the first key from there on has a list that holds its list as the one value.
Nothing else changes. -/
structure Wrote (g : Bytes → Option (Option (List (Elem V)))) (k : Bytes) (v : Option V)
    (g' : Bytes → Option (Option (List (Elem V)))) : Prop where
  new : g k = none → g' k = some (some (v.toList.map fun p => .one (some p)))
  added : ∀ d, g k = some (some d) → g' k = some (some (d ++ [.one v]))
  lost : g k = some none → g' k = some none
  split : ∀ p, Splits g k p → g' p = some none
  moved : ∀ p q d, Splits g k p → First g p q → g q = some (some d) → g' q = some (some [.nested d])
  emptied : ∀ p q, Splits g k p → First g p q → g q = some none → g' q = some (some [])
  other : ∀ q, q ≠ k → ¬ Splits g k q → (∀ p, Splits g k p → ¬ First g p q) → g' q = g q

/-- Dictionaries made by writes that leave no key at a place that is not a key, and by removals that do not
fault; with the pointers given and the pointers destroyed. -/
inductive Calm (c : Calls V) : MStore V → List (Option V) → List (Option V) → Prop
  | create : Calm c MRadix.create [] []
  | set {s s' : MStore V} {g d : List (Option V)} (k : Bytes) (v : Option V) : Calm c s g d → k ≠ [] →
      made c v ≠ none → (∀ p, ¬ Splits (seen s) k p) → MRadix.set c s k v = .ok s' →
      Calm c s' (g ++ [made c v]) d
  | unset {s s' : MStore V} {g d d' : List (Option V)} (k : Bytes) : Calm c s g d →
      MRadix.unset c s k = .ok (s', d') → Calm c s' g (d ++ d')

end Spec.PlainM
end Comps
