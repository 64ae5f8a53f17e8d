import Verif.Lemmas.PyForget
import Verif.Props.PyDict

/-!
# Python string dictionaries with keys that are prefixes of others (C72)
-/

namespace Comps.Props
open Comps Comps.Spec Comps.Spec.PyD Comps.PyDict

/-- For the examples: a program that writes a proper prefix of a key, in a dictionary and by a merge. -/
def dictLossy : List Op :=
  [.new, .set 0 (pys b!"ab") (pys b!"1"), .set 0 (pys b!"c") (pys b!"2"), .set 0 (pys b!"a") (pys b!"3"),
   .getItem 0 (pys b!"c"), .getItem 0 (pys b!"ab"), .getItem 0 (pys b!"a"),
   .new, .set 1 (pys b!"ab") (pys b!"4"), .set 1 (pys b!"d") (pys b!"5"), .update 1 0, .str 1]

theorem dictLossy_textual : TextualRun ascii World.start.iters dictLossy := by
  refine ⟨trivial, ⟨b!"ab", b!"1", rfl, rfl, by decide, by decide, by decide⟩,
    ⟨b!"c", b!"2", rfl, rfl, by decide, by decide, by decide⟩,
    ⟨b!"a", b!"3", rfl, rfl, by decide, by decide, by decide⟩, ?_, ?_, ?_, trivial,
    ⟨b!"ab", b!"4", rfl, rfl, by decide, by decide, by decide⟩,
    ⟨b!"d", b!"5", rfl, rfl, by decide, by decide, by decide⟩, trivial, trivial, trivial⟩ <;>
  simp [Textual, keyText, pys]

/-! ## C72 dictionaries are finite maps -/

/-- C72, part that holds of every program of text, with any keys: it runs without fault, and every answer is
that of finite maps that may forget keys.  Only a write of a key that is not there and is a proper prefix of
one written before makes a dictionary forget, and then only keys that do not begin with the key written.
Missing: that nothing is forgotten (`C72_false`), `del`, and the other cases `Textual` leaves out. -/
theorem C72_forgets_partial (lt : UInt8 → UInt8 → Bool) {utf8 : Bytes → Bool} (h0 : utf8 [] = true)
    {ops : List Op} (hp : TextualRun utf8 World.start.iters ops) :
    ∃ st xs, run lt utf8 start ops = .ok (st, xs) ∧ Follows World.start ops xs :=
  run_forget lt h0 ops inv_start ref_start hp

example : ∃ st xs, run ltb ascii start dictLossy = .ok (st, xs) ∧ Follows World.start dictLossy xs :=
  C72_forgets_partial ltb rfl dictLossy_textual

/-- The key `c` is forgotten; in the second dictionary `d` is. -/
example : answersOf dictLossy =
    .ok [.object, .done, .done, .done, .exc .keyError, .text b!"1", .text b!"3",
      .object, .done, .done, .done, .text b!"{a = '3', ab = '1', }"] := by rfl

end Comps.Props

section
open Comps.Props
#print axioms C72_forgets_partial
end
