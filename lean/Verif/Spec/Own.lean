import Verif.Spec.Merge

/-!
# Specification: merged lists, and the memory they leave behind

Independent of the model.  `key` gives the name of an object.
-/

namespace Comps.Spec.Own
variable {α κ : Type} [DecidableEq κ]

/-- How many of the names were met before (`seen`, or earlier in the list). -/
def repeatsIn : List κ → List κ → Nat
  | _, [] => 0
  | seen, k :: ks => (if k ∈ seen then 1 else 0) + repeatsIn (k :: seen) ks

/-- How many of the names occur earlier in the list. -/
def repeats (ks : List κ) : Nat := repeatsIn [] ks

/-- The objects of `a` in place; the first of each name is joined with what `b` has of that name. -/
def overlayWith (key : α → κ) (join : α → List α → α) (b : List α) : List κ → List α → List α
  | _, [] => []
  | seen, x :: xs =>
    (if key x ∈ seen then x else join x (b.filter fun y => key y = key x)) ::
      overlayWith key join b (key x :: seen) xs

/-- The objects of `b` whose name is not in `a`. -/
def newIn (key : α → κ) (a b : List α) : List α := b.filter fun y => key y ∉ a.map key

/-- The same for lists of references: `f` gives the objects. -/
def newAt (key : α → κ) (f : Nat → α) (a b : List Nat) : List Nat :=
  b.filter fun p => key (f p) ∉ (a.map f).map key

/-- The names in `b` that are in `a`. -/
def shared (key : α → κ) (a b : List α) : List κ := (b.map key).filter fun k => k ∈ a.map key

/-- Joining with the first object of the name. -/
def withFirst (f : α → α → α) (x : α) : List α → α
  | [] => x
  | y :: _ => f x y

end Comps.Spec.Own
