import Verif.Model.BRadix
import Verif.Spec.FMap
import Verif.Spec.Radix

/-!
# Specification of the dictionary with keys of any kind

A finite map (`Verif/Spec/FMap.lean`), written to by a list of writes.  Independent of the tree.
-/

namespace Comps
namespace Spec.BDict
open Comps.Radix (Calls Store)
open Comps.Spec.Plain (made)
variable {V : Type}

/-- A call that changes a dictionary. -/
inductive Call (V : Type) where
  | set (key : Bytes) (data : Option V)
  | unset (key : Bytes)

/-- Calls one after the other: the dictionary, and what was passed to the destructor. -/
def run (c : Calls V) : Store V → List (Call V) → Res (Store V × List (Option V))
  | s, [] => .ok (s, [])
  | s, .set k v :: xs => do
    let r ← BRadix.set c s k v
    let r' ← run c r.1 xs
    .ok (r'.1, r.2 ++ r'.2)
  | s, .unset k :: xs => do
    let r ← BRadix.unset c s k
    let r' ← run c r.1 xs
    .ok (r'.1, r.2 ++ r'.2)

/-- The writes among calls. -/
def writesOf : List (Call V) → List (Bytes × Option V)
  | [] => []
  | .set k v :: xs => (k, v) :: writesOf xs
  | .unset _ :: xs => writesOf xs

/-- Writes one after the other. -/
def sets (c : Calls V) (s : Store V) (ws : List (Bytes × Option V)) :
    Res (Store V × List (Option V)) := run c s (ws.map fun e => .set e.1 e.2)

/-- The values stored by writes, in order. -/
def stored (c : Calls V) (ws : List (Bytes × Option V)) : List (Bytes × Option V) :=
  ws.map fun e => (e.1, made c e.2)

/-- The pointers the dictionary is given. -/
def given (c : Calls V) (ws : List (Bytes × Option V)) : List V :=
  ws.flatMap fun e => (made c e.2).toList

/-- All keys have the length `n`, which is not 0. -/
def FixedLength (n : Nat) (ws : List (Bytes × Option V)) : Prop :=
  0 < n ∧ ∀ e ∈ ws, e.1.length = n

/-- No key is empty, and none is a proper prefix of one written before. -/
def Orderly (ws : List (Bytes × Option V)) : Prop :=
  (∀ e ∈ ws, e.1 ≠ []) ∧ ws.Pairwise fun a b => ¬ ProperPrefix b.1 a.1

end Spec.BDict
end Comps
