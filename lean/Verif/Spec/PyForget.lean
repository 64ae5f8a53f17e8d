import Verif.Spec.PyDict

/-!
# Specification: dictionaries that may forget

What is left of the promise of C72 when keys may be proper prefixes of keys written before: a write may make
the dictionary forget other keys, and it is known when and which; nothing else goes wrong.
-/

namespace Comps.Spec.PyD
open Comps Comps.Spec Comps.PyDict

/-- The key `k` of dictionary `i` may be forgotten in an operation: it does not begin with a key that is
written then, which was not there and is a proper prefix of one written before. -/
def MayForget (w : World) (i : Nat) (k : Bytes) : Op → Prop
  | .set j key _ => j = i ∧ ∃ d kb, w.dict i = some d ∧ keyText key = some kb ∧ d.map kb = none ∧
      ¬ kb <+: k ∧ ∃ s ∈ d.past, ProperPrefix kb s
  | .update j l => j = i ∧ j ≠ l ∧ ∃ d e kb, w.dict i = some d ∧ w.dict l = some e ∧ e.map kb ≠ none ∧
      ¬ kb <+: k ∧ ∃ s ∈ d.past, ProperPrefix kb s
  | _ => False

/-- `w'` is what the operation should lead to, but for keys that may be forgotten. -/
structure Forgets (w : World) (op : Op) (w' : World) : Prop where
  iters : w'.iters = (w.after op).iters
  size : w'.dicts.length = (w.after op).dicts.length
  gone : ∀ i, (w.after op).dict i = none → w'.dict i = none
  left : ∀ i d, (w.after op).dict i = some d → ∃ d', w'.dict i = some d' ∧ d'.past = d.past ∧
    ∀ k, d'.map k = d.map k ∨ (d'.map k = none ∧ MayForget w i k op)

/-- Programs of text: keys that are not empty, keys and values that decode, nothing deleted, no stale
iterator over values advanced. -/
def Textual (utf8 : Bytes → Bool) (its : List It) : Op → Prop
  | .set _ k v => ∃ kb vb, keyText k = some kb ∧ valText v = some vb ∧ kb ≠ [] ∧
      utf8 kb = true ∧ utf8 vb = true
  | .del _ _ => False
  | .getItem _ k => keyText k ≠ none
  | .get _ k => keyText k ≠ none
  | .hasKey _ k => keyText k ≠ none
  | .next j => ∀ it, its[j]? = some it → it.kind = .keys ∨ it.stale = false
  | _ => True

/-- A program all of whose operations are textual. -/
def TextualRun (utf8 : Bytes → Bool) (its : List It) : List Op → Prop
  | [] => True
  | op :: ops => Textual utf8 its op ∧ TextualRun utf8 (itersAfter its op) ops

/-- Every answer is that of finite maps, which may forget keys between the operations. -/
def Follows (w : World) : List Op → List Ans → Prop
  | [], [] => True
  | op :: ops, x :: xs => Answer w x op ∧ ∃ w', Forgets w op w' ∧ Follows w' ops xs
  | _, _ => False

end Comps.Spec.PyD
