/-! # Specification: equality functions and membership up to equality -/

namespace Comps.Spec
variable {α : Type}

/-- `eqf` is an equivalence relation. -/
structure IsEquiv (eqf : α → α → Bool) : Prop where
  refl : ∀ x, eqf x x = true
  symm : ∀ x y, eqf x y = true → eqf y x = true
  trans : ∀ x y z, eqf x y = true → eqf y z = true → eqf x z = true

/-- `x` is, up to `eqf`, an element of `s`. -/
def In (eqf : α → α → Bool) (s : List α) (x : α) : Prop := ∃ y ∈ s, eqf y x = true

/-- Every member of `s1` is, up to `eqf`, a member of `s2`. -/
def Sub (eqf : α → α → Bool) (s1 s2 : List α) : Prop := ∀ x ∈ s1, In eqf s2 x

/-- The first occurrences: elements with no earlier equal element. -/
def firsts (eqf : α → α → Bool) : List α → List α → List α
  | _, [] => []
  | seen, x :: xs =>
    if seen.any (fun y => eqf y x) then firsts eqf seen xs
    else x :: firsts eqf (seen ++ [x]) xs

end Comps.Spec
