import Verif.Model.Radix
import Verif.Spec.FMap

/-!
# Histories of a plain dictionary and the pointers it owns

A dictionary of pointers takes over what is stored in it: everything handed over must be passed to the
destructor once, and not while it can still be read.
-/

namespace Comps.Spec.Plain
open Comps Comps.Radix Comps.Spec
variable {V : Type}

/-- A call that changes a dictionary. -/
inductive Call (V : Type) where
  /-- `comps_dict_set(d, k, v)` -/
  | set (k : Bytes) (v : Option V)
  /-- `comps_dict_set_n(d, k, n, v)` -/
  | setN (k : Bytes) (n : Nat) (v : Option V)
  /-- `comps_dict_unset(d, k)` -/
  | unset (k : Bytes)
  /-- `comps_dict_clear(d)` -/
  | clear

/-- One call; the second result is what is passed to the destructor. -/
def call (c : Calls V) (lt : UInt8 → UInt8 → Bool) (s : Store V) :
    Call V → Res (Store V × List (Option V))
  | .set k v => Radix.set c lt s k v
  | .setN k n v => Radix.setN c lt s k n v
  | .unset k => Radix.unset c s k
  | .clear => Radix.clear c s

/-- A history, first call first. -/
def run (c : Calls V) (lt : UInt8 → UInt8 → Bool) :
    Store V → List (Call V) → Res (Store V × List (Option V))
  | s, [] => .ok (s, [])
  | s, x :: xs =>
    match call c lt s x with
    | .error f => .error f
    | .ok (s', d) =>
      match run c lt s' xs with
      | .error f => .error f
      | .ok (s'', d') => .ok (s'', d ++ d')

/-- The pointer stored for `v`: what the constructor gives, if there is one. -/
def made (c : Calls V) (v : Option V) : Option V :=
  match c.ctor with
  | some f => f v
  | none => v

/-- The pointers a call hands over (NULL is none). -/
def handedBy (c : Calls V) : Call V → List V
  | .set _ v => (made c v).toList
  | .setN _ _ v => (made c v).toList
  | _ => []

/-- The pointers a history hands over. -/
def handed (c : Calls V) (xs : List (Call V)) : List V := xs.flatMap (handedBy c)

/-- The calls of the destructor without those for NULL. -/
def freed (d : List (Option V)) : List V := d.filterMap id

/-- The key a call writes. -/
def written : Call V → Option Bytes
  | .set k _ => some k
  | .setN k n _ => some (k.take n)
  | _ => none

/-- The string given by a call that writes. -/
def given : Call V → Option Bytes
  | .set k _ => some k
  | .setN k _ _ => some k
  | _ => none

/-- No key written is empty, and none is a proper prefix of a string given before. -/
def Orderly (xs : List (Call V)) : Prop :=
  (∀ x ∈ xs, written x ≠ some []) ∧
  xs.Pairwise fun a b => ∀ k s, written b = some k → given a = some s → ¬ ProperPrefix k s

/-- A history of writes and removals of whole keys. -/
def Whole (xs : List (Call V)) : Prop := ∀ x ∈ xs, ∃ k, (∃ v, x = .set k v) ∨ x = .unset k

/-- The same history on an object dictionary: `made` pointers are its values. -/
def runObj (c : Calls V) (lt : UInt8 → UInt8 → Bool) : RTree V → List (Call V) → Res (RTree V)
  | t, [] => .ok t
  | t, .set k v :: xs => runObj c lt (t.set lt k (made c v)) xs
  | t, .setN k n v :: xs => runObj c lt (t.setN lt k n (made c v)) xs
  | t, .unset k :: xs =>
    match t.unset k with
    | .error f => .error f
    | .ok t' => runObj c lt t' xs
  | t, .clear :: xs => runObj c lt t.clear xs

end Comps.Spec.Plain
